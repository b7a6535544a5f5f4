import Verif.FnKindProps
import Verif.FnPassProps

/-!
# The names functions have in Rust

Functions are told apart by numbers. Which name each function analysed in a pass gets is said exactly, and when the names
of two of them are different.
-/

set_option autoImplicit false

namespace Verif

/-! ## Specification -/

/-- What a function asks to be called: the namespace it is to be told apart in, the class it belongs to, and a name. -/
structure NameWish where
  ns : List String
  cls : Option String
  base : String
deriving DecidableEq

/-- What a member of a class is to be called: a constructor is called `new`, with the number it had. -/
inductive MemberBase (inner ideal : String) : String → Prop
  | own : MemberBase inner ideal ideal
  | new {suffix : String} (h : ideal = inner ++ suffix) : MemberBase inner ideal ("new" ++ suffix)

/-- What the function of an analysis asks to be called. A method which is looked at a second time, for the subclasses of
its class, has its name already. -/
inductive AsksName (env : FnEnv) (r : FnRun) : Option NameWish → Prop
  | free {ideal : String} (hk : r.a.kind = .function) (hi : IdealName r.f.ident r.name.cppName ideal) :
      AsksName env r (some ⟨r.name.name.ns, none, ideal⟩)
  | cast {q : QName} {d : TraitMethodDetails} {ideal : String} (hk : r.a.kind = .traitMethod .cast q d)
      (hi : IdealName r.f.ident r.name.cppName ideal) : AsksName env r (some ⟨r.name.name.ns, none, ideal⟩)
  | storage {k : TraitMethodKind} {q : QName} {d : TraitMethodDetails} {ideal : String}
      (hk : r.a.kind = .traitMethod k q d) (hs : k = .alloc ∨ k = .dealloc)
      (hi : IdealName r.f.ident r.name.cppName ideal) : AsksName env r (some ⟨q.ns, none, ideal⟩)
  | member {q : QName} {ideal base : String}
      (hk : (∃ mk, r.a.kind = .method mk q) ∨
        ∃ t d, r.a.kind = .traitMethod t q d ∧ t ≠ .cast ∧ t ≠ .alloc ∧ t ≠ .dealloc)
      (hi : IdealName r.f.ident r.name.cppName ideal)
      (hb : MemberBase ((AMap.get? env.nested q).getD q.name) ideal base) (hp : r.pre = none) :
      AsksName env r (some ⟨r.name.name.ns, some q.name, base⟩)
  | settled (hp : r.pre = some r.a.rustName) (hk : r.a.kind ≠ .function)
      (hk' : ∀ t q d, r.a.kind = .traitMethod t q d → t ≠ .cast ∧ t ≠ .alloc ∧ t ≠ .dealloc) : AsksName env r none

/-- What was asked for in one namespace. -/
def wishesIn (ns : List String) (l : List (Option NameWish)) : List (Option String × String) :=
  l.filterMap fun w => match w with
    | some w => if w.ns = ns then some (w.cls, w.base) else none
    | none => none

/-- The name something is given when others were named before it. -/
def nameGiven (before : List (Option NameWish)) (w : NameWish) : String :=
  overloadSpec (wishesIn w.ns before) (w.cls, w.base)

/-! ## One function -/

theorem memberBase_of {inner ideal base : String} (h : base = (match stripPrefix ideal inner with
    | some suffix => "new" ++ suffix
    | none => ideal)) : MemberBase inner ideal base := by
  rcases base_name h with ⟨suffix, e, rfl⟩ | ⟨-, rfl⟩
  · exact .new e
  · exact .own

/-- Whatever is decided, the name comes from the count of names, or was settled. -/
theorem decideKind_named {env : FnEnv} {s s' : FnState} {ns : List String} {f : FuncToConvert} {ideal : String}
    {pre : Option String} {cls : Option QName} {isStatic : Bool} {recv : Option ReceiverMutability} {ref : Bool}
    {kn : KindAndName} (h : decideKind env s ns f ideal pre cls isStatic recv ref = .done (s', kn)) :
    ∃ base, Named s ns pre base kn.kind s' kn.rustName ∧
      ((∃ q, cls = some q ∧ MemberBase ((AMap.get? env.nested q).getD q.name) ideal base ∧
          ((∃ mk, kn.kind = .method mk q) ∨
            ∃ t d, kn.kind = .traitMethod t q d ∧ t ≠ .cast ∧ t ≠ .alloc ∧ t ≠ .dealloc)) ∨
        base = ideal ∧ (kn.kind = .function ∨
          ∃ t q d, kn.kind = .traitMethod t q d ∧ (t = .cast ∨ t = .alloc ∨ t = .dealloc))) := by
  rw [decideKind.eq_def] at h
  split at h
  · rename_i t ht
    rw [traitKind.eq_def] at h
    split at h
    · split at h
      · cases h
      · cases h
        exact ⟨ideal, .cast ⟨rfl, rfl⟩, .inr ⟨rfl, .inr ⟨_, _, _, rfl, .inl rfl⟩⟩⟩
    · cases h
      exact ⟨ideal, .storage (.inl rfl) ⟨rfl, rfl⟩, .inr ⟨rfl, .inr ⟨_, _, _, rfl, .inr (.inl rfl)⟩⟩⟩
    · cases h
      exact ⟨ideal, .storage (.inr rfl) ⟨rfl, rfl⟩, .inr ⟨rfl, .inr ⟨_, _, _, rfl, .inr (.inr rfl)⟩⟩⟩
  · split at h
    · rename_i q
      have key : ∀ {k : FnKind} {base : String}, MemberBase ((AMap.get? env.nested q).getD q.name) ideal base →
          ((∃ mk, k = .method mk q) ∨ ∃ t d, k = .traitMethod t q d ∧ t ≠ .cast ∧ t ≠ .alloc ∧ t ≠ .dealloc) →
          ∃ base', Named s ns pre base' k (methodName s ns q.name pre base).1 (methodName s ns q.name pre base).2 ∧
            ((∃ q', some q = some q' ∧ MemberBase ((AMap.get? env.nested q').getD q'.name) ideal base' ∧
              ((∃ mk, k = .method mk q') ∨
                ∃ t d, k = .traitMethod t q' d ∧ t ≠ .cast ∧ t ≠ .alloc ∧ t ≠ .dealloc)) ∨
            base' = ideal ∧ (k = .function ∨
              ∃ t q d, k = .traitMethod t q d ∧ (t = .cast ∨ t = .alloc ∨ t = .dealloc))) :=
        fun hb hk => ⟨_, named_member hk, .inl ⟨q, rfl, hb, hk⟩⟩
      dsimp only at h
      split at h
      · rw [copyMoveKind] at h
        simp only [if_true] at h
        cases h
        exact key (memberBase_of rfl) (.inr ⟨_, _, rfl, by simp⟩)
      · rw [copyMoveKind] at h
        simp only [Bool.false_eq_true, if_false] at h
        cases ref with
        | true => cases h; exact key (memberBase_of rfl) (.inr ⟨_, _, rfl, by simp⟩)
        | false => cases h; exact key (memberBase_of rfl) (.inl ⟨_, rfl⟩)
      · cases h
        exact key .own (.inr ⟨_, _, rfl, by simp⟩)
      · rw [plainMethodKind.eq_def] at h
        split at h
        · rename_i suffix hsuf
          cases h
          exact key (.new ((like_class _).1 hsuf).1) (.inl ⟨_, rfl⟩)
        · split at h
          · cases h
            exact key .own (.inl ⟨_, rfl⟩)
          · split at h
            · cases h
            · cases h
              exact key .own (.inl ⟨_, rfl⟩)
    · cases h
      exact ⟨ideal, .function ⟨rfl, rfl⟩, .inr ⟨rfl, .inl rfl⟩⟩

/-- What an analysis asks for, and what it does to the counts of names. -/
theorem asks_name {env : FnEnv} {r : FnRun} (h : r.Ok env) :
    (AsksName env r none ∧ r.s'.overloads = r.s.overloads) ∨
    ∃ w, AsksName env r (some w) ∧
      r.a.rustName = (((AMap.get? r.s.overloads w.ns).getD {}).getName w.cls w.base).2 ∧
      r.s'.overloads = AMap.insert r.s.overloads w.ns (((AMap.get? r.s.overloads w.ns).getD {}).getName w.cls w.base).1 := by
  obtain ⟨t⟩ := analyze_steps h
  have hi := ideal_done t.hideal
  obtain ⟨base, hn, hb⟩ := decideKind_named t.hkind
  rw [← t.kind_eq, ← t.name_eq] at hn
  rw [← t.kind_eq] at hb
  have h1 := t.hparams.overloads
  have h3 := reanalyzeParams_overloads t.hre
  have h4 : t.s4.overloads = t.s3.overloads := by rw [t.hs4]
  have h5 : r.s'.overloads = t.s4.overloads := by
    rcases t.hret with ⟨hr, _⟩ | ⟨e, hr, _, _⟩
    · exact convertReturn_overloads hr
    · exact convertReturn_overloads hr
  have hend : r.s'.overloads = t.s2.overloads := by rw [h5, h4, h3]
  have tracked : ∀ {ns : List String} {ty : Option String} {base n : String}, Tracked t.s1 ns ty base t.s2 n →
      n = (((AMap.get? r.s.overloads ns).getD {}).getName ty base).2 ∧
      r.s'.overloads = AMap.insert r.s.overloads ns (((AMap.get? r.s.overloads ns).getD {}).getName ty base).1 := by
    intro ns ty base n ht
    refine ⟨by rw [ht.1, h1], ?_⟩
    rw [hend, ht.2, ← h1]
  generalize hkk : r.a.kind = kk at hn hb
  generalize hss : t.s2 = s2 at hn
  generalize hrn : r.a.rustName = rn at hn
  cases hn with
  | function ht =>
    subst hss hrn
    rcases hb with ⟨q, -, -, ⟨mk, e⟩ | ⟨_, _, e, _⟩⟩ | ⟨rfl, -⟩
    · cases e
    · cases e
    · exact .inr ⟨_, .free hkk hi, tracked ht⟩
  | cast ht =>
    subst hss hrn
    rcases hb with ⟨q, -, -, ⟨mk, e⟩ | ⟨_, _, e, hx, _⟩⟩ | ⟨rfl, -⟩
    · cases e
    · cases e; exact absurd rfl hx
    · exact .inr ⟨_, .cast hkk hi, tracked ht⟩
  | storage hk ht =>
    subst hss hrn
    rcases hb with ⟨q, -, -, ⟨mk, e⟩ | ⟨_, _, e, -, hx, hx'⟩⟩ | ⟨rfl, -⟩
    · cases e
    · cases e; rcases hk with hk | hk <;> [exact absurd hk hx; exact absurd hk hx']
    · exact .inr ⟨_, .storage hkk hk hi, tracked ht⟩
  | given hk hk' hp =>
    refine .inl ⟨.settled (by rw [hrn]; exact hp) (by rw [hkk]; exact hk) (by rw [hkk]; exact hk'), ?_⟩
    rw [hend, hss, h1]
  | @member k q s' n hk hp ht =>
    subst hss hrn
    rcases hb with ⟨q', -, hm, hk2⟩ | ⟨-, e | ⟨t', q', d, e, hx⟩⟩
    · have hq : q' = q := by
        rcases hk with ⟨_, rfl⟩ | ⟨_, _, rfl, _⟩ <;> rcases hk2 with ⟨_, e⟩ | ⟨_, _, e, _⟩ <;> cases e <;> rfl
      subst hq
      exact .inr ⟨_, .member (by rw [hkk]; exact hk) hi hm hp, tracked ht⟩
    · rcases hk with ⟨_, rfl⟩ | ⟨_, _, rfl, _⟩ <;> cases e
    · rcases hk with ⟨_, rfl⟩ | ⟨_, _, rfl, h6, h7, h8⟩
      · cases e
      · cases e
        rcases hx with rfl | rfl | rfl
        · exact absurd rfl h6
        · exact absurd rfl h7
        · exact absurd rfl h8

/-! ## A pass -/

/-- The counts are those of what was asked for. -/
def CountsOf (m : AMap (List String) OverloadTracker) (seen : List (Option NameWish)) : Prop :=
  ∀ ns, ((AMap.get? m ns).getD {}).Counts (wishesIn ns seen)

theorem wishesIn_append (ns : List String) (l m : List (Option NameWish)) :
    wishesIn ns (l ++ m) = wishesIn ns l ++ wishesIn ns m := List.filterMap_append

/-- Each analysis of a list is given the name which what was asked for before says. -/
inductive NamesGiven (env : FnEnv) : List (Option NameWish) → List FnRun → List (Option NameWish) → Prop
  | nil {before : List (Option NameWish)} : NamesGiven env before [] []
  | settled {before : List (Option NameWish)} {r : FnRun} {tr : List FnRun} {ws : List (Option NameWish)}
      (h : AsksName env r none) (ht : NamesGiven env (before ++ [none]) tr ws) :
      NamesGiven env before (r :: tr) (none :: ws)
  | given {before : List (Option NameWish)} {r : FnRun} {w : NameWish} {tr : List FnRun} {ws : List (Option NameWish)}
      (h : AsksName env r (some w)) (hn : r.a.rustName = nameGiven before w)
      (ht : NamesGiven env (before ++ [some w]) tr ws) : NamesGiven env before (r :: tr) (some w :: ws)

theorem names_given_from {env : FnEnv} {s s' : FnState} {tr : List FnRun} (h : Trace env s tr s')
    {before : List (Option NameWish)} (hc : CountsOf s.overloads before) : ∃ ws, NamesGiven env before tr ws := by
  induction h generalizing before with
  | nil => exact ⟨[], .nil⟩
  | cons e h _ ih =>
    rename_i s s' r tr _
    have ho : r.s.overloads = s.overloads := by rw [e]
    rcases asks_name h with ⟨ha, hs⟩ | ⟨w, ha, hn, hs⟩
    · obtain ⟨ws, hw⟩ := ih (before := before ++ [none]) (by
        intro ns
        rw [hs, ho, wishesIn_append]
        simpa [wishesIn] using hc ns)
      exact ⟨_, .settled ha hw⟩
    · have hg := overload_getName _ _ (hc w.ns) (w.cls, w.base)
      obtain ⟨ws, hw⟩ := ih (before := before ++ [some w]) (by
        intro ns
        rw [hs, ho, wishesIn_append, AMap.get?_insert]
        by_cases hns : w.ns = ns
        · subst hns
          simpa [wishesIn] using hg.2
        · simpa [wishesIn, hns] using hc ns)
      refine ⟨_, .given ha ?_ hw⟩
      rw [hn, ho]
      exact hg.1

/-- **C65 (names, exact)**: in every pass, each function gets the name it asks for if it is the first in its namespace to
ask for it – the first member of its class to do so, if it is a member of one – and otherwise that name followed by the
number of those before it. A method analysed again for the subclasses of its class keeps its name and is not counted. -/
theorem names_in_pass {env : FnEnv} {s s' : FnState} {tr : List FnRun} (h : Trace env s tr s') (hs : s.overloads = []) :
    ∃ ws, NamesGiven env [] tr ws :=
  names_given_from h fun ns => by rw [hs]; exact ⟨fun _ => rfl, fun _ _ => rfl⟩

theorem NamesGiven.split {env : FnEnv} {tr : List FnRun} {before ws : List (Option NameWish)}
    (h : NamesGiven env before tr ws) {t1 t2 : List FnRun} {r : FnRun} (e : tr = t1 ++ r :: t2) :
    ∃ w1 w w2, ws = w1 ++ w :: w2 ∧ AsksName env r w ∧ NamesGiven env (before ++ w1 ++ [w]) t2 w2 ∧
      ∀ x, w = some x → r.a.rustName = nameGiven (before ++ w1) x := by
  induction t1 generalizing before tr ws with
  | nil =>
    subst e
    cases h with
    | settled h ht => exact ⟨[], none, _, rfl, h, by simpa using ht, fun x e => by cases e⟩
    | given h hn ht => exact ⟨[], some _, _, rfl, h, by simpa using ht, fun x e => by cases e; simpa using hn⟩
  | cons a t1 ih =>
    subst e
    cases h with
    | settled h ht =>
      obtain ⟨w1, w, w2, rfl, ha, hn, hx⟩ := ih ht rfl
      exact ⟨none :: w1, w, w2, rfl, ha, by simpa using hn, fun x e => by simpa using hx x e⟩
    | @given _ _ w0 _ _ h hn0 ht =>
      obtain ⟨w1, w, w2, rfl, ha, hn, hx⟩ := ih ht rfl
      exact ⟨some w0 :: w1, w, w2, rfl, ha, by simpa using hn, fun x e => by simpa using hx x e⟩

/-- If two names given are the same, then one of the names asked for is the other followed by a number. -/
theorem overload_spec_eq {pre mid : List (Option String × String)} {c d : Option String × String} (ht : c.1 = d.1)
    (he : overloadSpec pre c = overloadSpec (pre ++ c :: mid) d) :
    ∃ k, 0 < k ∧ (c.2 = d.2 ++ dec k ∨ d.2 = c.2 ++ dec k) := by
  by_contra hno
  have h1 : ∀ k, 0 < k → c.2 ≠ d.2 ++ dec k := fun k hk e => hno ⟨k, hk, .inl e⟩
  have h2 : ∀ k, 0 < k → d.2 ≠ c.2 ++ dec k := fun k hk e => hno ⟨k, hk, .inr e⟩
  have self : ∀ (x : String) (k : Nat), x ≠ x ++ dec k := by
    intro x k e
    have := congrArg (fun s => s.toList.length) e
    simp only [String.toList_append, List.length_append] at this
    exact dec_ne_nil k (by rw [List.eq_nil_of_length_eq_zero (l := (dec k).toList) (by omega)])
  by_cases hcd : c = d
  · subst hcd
    exact overload_same_name_distinct pre mid c he
  · have hne : c.2 ≠ d.2 := fun e => hcd (Prod.ext ht e)
    -- What else was asked for does not matter here: only the two counts do.
    have hc0 : overloadSpec pre c = overloadSpec (List.replicate (pre.count c) c) c := by
      rw [overloadSpec, overloadSpec, List.count_replicate_self]
    have hd0 : overloadSpec (pre ++ c :: mid) d =
        overloadSpec (List.replicate (pre.count c) c ++ c :: List.replicate ((pre ++ c :: mid).count d) d) d := by
      have : (List.replicate (pre.count c) c ++ c :: List.replicate ((pre ++ c :: mid).count d) d).count d =
          (pre ++ c :: mid).count d := by
        generalize (pre ++ c :: mid).count d = m
        rw [List.count_append, List.count_cons_of_ne (fun e => hcd e), List.count_replicate_self, List.count_replicate,
          if_neg (by simpa using hcd), Nat.zero_add]
      rw [overloadSpec, overloadSpec, this]
    rw [hc0, hd0] at he
    refine overload_spec_ne (post := []) ?_ rfl ht he
    intro x hx y hy hxy k hk
    have mem : ∀ {z : Option String × String}, z ∈ List.replicate (pre.count c) c ++
        c :: (List.replicate ((pre ++ c :: mid).count d) d ++ [d]) → z = c ∨ z = d := by
      intro z hz
      simp only [List.mem_append, List.mem_cons, List.mem_replicate, List.not_mem_nil, or_false] at hz
      rcases hz with ⟨-, h⟩ | h | ⟨-, h⟩ | h
      exacts [.inl h, .inl h, .inr h, .inr h]
    rcases mem hx with rfl | rfl <;> rcases mem hy with rfl | rfl
    exacts [self _ k, h1 k hk, h2 k hk, self _ k]

/-- Two functions of one namespace and class, analysed one after the other, have different names, unless one asks for
the name the other asks for followed by a number. -/
theorem given_differ {env : FnEnv} {tr t1 t2 t3 : List FnRun} {ws : List (Option NameWish)} {r r' : FnRun}
    (h : NamesGiven env [] tr ws) (e : tr = t1 ++ r :: (t2 ++ r' :: t3)) :
    ∃ v v', AsksName env r v ∧ AsksName env r' v' ∧
      ∀ w w', v = some w → v' = some w' → w.ns = w'.ns → w.cls = w'.cls → r.a.rustName = r'.a.rustName →
        ∃ k, 0 < k ∧ (w.base = w'.base ++ dec k ∨ w'.base = w.base ++ dec k) := by
  obtain ⟨w1, v, w2, rfl, ha, ht, hx⟩ := h.split e
  obtain ⟨u1, v', u2, rfl, ha', -, hx'⟩ := ht.split rfl
  refine ⟨v, v', ha, ha', ?_⟩
  rintro w w' rfl rfl hns hcls he
  rw [hx w rfl, hx' w' rfl, nameGiven, nameGiven, ← hns] at he
  have h2 : wishesIn w.ns ([] ++ w1 ++ [some w] ++ u1) = wishesIn w.ns w1 ++ (w.cls, w.base) :: wishesIn w.ns u1 := by
    rw [wishesIn_append, wishesIn_append, wishesIn_append]
    simp [wishesIn]
  rw [h2] at he
  exact overload_spec_eq (c := (w.cls, w.base)) (d := (w'.cls, w'.base)) hcls (by simpa [wishesIn] using he)

/-! ## Everything offered -/

/-- What a function or method is to be called, by its declaration. `inner` is the innermost name of a class. -/
inductive WishedName (inner : QName → String) (n : ApiName) (f : FuncToConvert) : FnKind → String → Prop
  | free {ideal : String} (h : IdealName f.ident n.cppName ideal) : WishedName inner n f .function ideal
  | method {k : MethodKind} {q : QName} {ideal base : String} (h : IdealName f.ident n.cppName ideal)
      (hb : MemberBase (inner q) ideal base) : WishedName inner n f (.method k q) base

/-- Two functions which Rust code sees in the same place: free functions of one namespace, or methods of one class. -/
inductive SamePlace (n n' : QName) : FnKind → FnKind → Prop
  | free (h : n.ns = n'.ns) : SamePlace n n' .function .function
  | method {k k' : MethodKind} {q q' : QName} (h : n.ns = n'.ns) (hq : q.name = q'.name) :
      SamePlace n n' (.method k q) (.method k' q')

theorem SamePlace.symm {n n' : QName} {k k' : FnKind} (h : SamePlace n n' k k') : SamePlace n' n k' k := by
  cases h with
  | free h => exact .free h.symm
  | method h hq => exact .method h.symm hq.symm

theorem two_of_list {α : Type} {l : List α} {x y : α} (hx : x ∈ l) (hy : y ∈ l) (hne : x ≠ y) :
    ∃ a b c, l = a ++ x :: (b ++ y :: c) ∨ l = a ++ y :: (b ++ x :: c) := by
  obtain ⟨a, b, rfl⟩ := List.append_of_mem hx
  rcases List.mem_append.1 hy with h | h
  · obtain ⟨c, d, rfl⟩ := List.append_of_mem h
    exact ⟨c, d, b, .inr (by simp)⟩
  · rcases List.mem_cons.1 h with h | h
    · exact absurd h.symm hne
    · obtain ⟨c, d, rfl⟩ := List.append_of_mem h
      exact ⟨a, c, d, .inl rfl⟩

theorem run_name {env : FnEnv} {r : FnRun} (h : r.Ok env) : r.n.name.ns = r.name.name.ns ∧ r.n.cppName = r.name.cppName := by
  obtain ⟨t⟩ := analyze_steps h
  obtain ⟨_, _, _, _, _, _, _, hn, _⟩ := finish_inv t.hfin
  rw [hn]
  exact ⟨rfl, rfl⟩

/-- What a function analysed once asks to be called is what it is to be called. -/
theorem asks_own {env : FnEnv} {r : FnRun} (h : r.Ok env) (hp : r.pre = none) {v : Option NameWish}
    (ha : AsksName env r v) :
    (∀ q k d, r.a.kind ≠ .traitMethod k q d) →
    ∃ w, v = some w ∧ w.ns = r.n.name.ns ∧
      WishedName (fun q => (AMap.get? env.nested q).getD q.name) r.n r.f r.a.kind w.base ∧
      (r.a.kind = .function ∧ w.cls = none ∨ ∃ k q, r.a.kind = .method k q ∧ w.cls = some q.name) := by
  intro hk
  have hn := run_name h
  cases ha with
  | free hf hi => exact ⟨_, rfl, hn.1.symm, by rw [hf]; exact .free (hn.2 ▸ hi), .inl ⟨hf, rfl⟩⟩
  | cast hc => exact absurd hc (hk _ _ _)
  | storage hc => exact absurd hc (hk _ _ _)
  | member hm hi hb _ =>
    rcases hm with ⟨mk, hm⟩ | ⟨_, _, hm, _⟩
    · exact ⟨_, rfl, hn.1.symm, by rw [hm]; exact .method (hn.2 ▸ hi) hb, .inr ⟨_, _, hm, rfl⟩⟩
    · exact absurd hm (hk _ _ _)
  | settled hs _ _ => rw [hp] at hs; cases hs

section
variable {fuel : Nat} {hash : Config → Nat} {policy : UnsafePolicy} {cfg : Config} {force : Bool}
  {apis : List PodApi} {out : ApiVec TypedefAnalysis PodAndConstructorAnalysis FnAnalysis}

/-- A function among the items of a pass was analysed for its own sake. -/
theorem function_from (p : FnPassStages fuel hash policy cfg force apis out) {n : ApiName} {f : FuncToConvert} {a : FnAnalysis}
    (h : .function n f a ∈ out.apis) : ∃ r ∈ p.runs, r.Ok p.env ∧ r.pre = none ∧ r.n = n ∧ r.f = f ∧ r.a = a := by
  have ho := items_from p h
  generalize hg : (Api.function n f a : FnPre2Api) = g at ho
  cases ho with
  | @kept z hz hf =>
    cases z with
    | function => cases hf
    | _ => cases hg
  | @fn r hr hp =>
    cases hg
    exact ⟨r, hr, p.trace.ok r hr, hp, rfl, rfl, rfl⟩
  | override_ => cases hg
  | trait_ => cases hg
  | inst => cases hg
  | marker h => subst hg; cases h

/-- **C65 (names differ, partial)**: two functions of a pass which Rust code sees in the same place – free functions of a
namespace, or methods of a class – have different names, unless one of them is to be called what the other is to be called
followed by a number. What is missing is exactly that case, in which C08 fails. -/
theorem same_name_partial (p : FnPassStages fuel hash policy cfg force apis out) {n n' : ApiName} {f f' : FuncToConvert}
    {a a' : FnAnalysis} (h : .function n f a ∈ out.apis) (h' : .function n' f' a' ∈ out.apis) (hne : n.name ≠ n'.name)
    (hs : SamePlace n.name n'.name a.kind a'.kind) (he : a.rustName = a'.rustName) :
    ∃ b b' k, WishedName (fun q => (AMap.get? p.env.nested q).getD q.name) n f a.kind b ∧
      WishedName (fun q => (AMap.get? p.env.nested q).getD q.name) n' f' a'.kind b' ∧ 0 < k ∧
      (b = b' ++ dec k ∨ b' = b ++ dec k) := by
  obtain ⟨r, hr, ho, hp, rfl, rfl, rfl⟩ := function_from p h
  obtain ⟨r', hr', ho', hp', rfl, rfl, rfl⟩ := function_from p h'
  obtain ⟨ws, hws⟩ := names_in_pass p.trace (ofApis_start p.henv).2.2.2
  have nt : ∀ {k k' : FnKind}, SamePlace r.n.name r'.n.name k k' →
      (∀ t q d, k ≠ .traitMethod t q d) ∧ ∀ t q d, k' ≠ .traitMethod t q d := by
    intro k k' h
    cases h <;> exact ⟨(fun _ _ _ e => by cases e), (fun _ _ _ e => by cases e)⟩
  have key : ∀ {r r' : FnRun}, r.Ok p.env → r'.Ok p.env → r.pre = none → r'.pre = none →
      SamePlace r.n.name r'.n.name r.a.kind r'.a.kind → r.a.rustName = r'.a.rustName →
      (∀ t q d, r.a.kind ≠ .traitMethod t q d) → (∀ t q d, r'.a.kind ≠ .traitMethod t q d) →
      (∃ t1 t2 t3, p.runs = t1 ++ r :: (t2 ++ r' :: t3)) →
      ∃ b b' k, WishedName (fun q => (AMap.get? p.env.nested q).getD q.name) r.n r.f r.a.kind b ∧
        WishedName (fun q => (AMap.get? p.env.nested q).getD q.name) r'.n r'.f r'.a.kind b' ∧ 0 < k ∧
        (b = b' ++ dec k ∨ b' = b ++ dec k) := by
    rintro r r' ho ho' hp hp' hs he hk hk' ⟨t1, t2, t3, e⟩
    obtain ⟨v, v', ha, ha', hx⟩ := given_differ hws e
    obtain ⟨w, rfl, hns, hown, hcls⟩ := asks_own ho hp ha fun q k d => hk k q d
    obtain ⟨w', rfl, hns', hown', hcls'⟩ := asks_own ho' hp' ha' fun q k d => hk' k q d
    have hsame : w.ns = w'.ns ∧ w.cls = w'.cls := by
      rw [hns, hns']
      generalize r.a.kind = k1 at hs hcls
      generalize r'.a.kind = k2 at hs hcls'
      cases hs with
      | free h =>
        rcases hcls with ⟨-, e1⟩ | ⟨_, _, e1, _⟩
        · rcases hcls' with ⟨-, e2⟩ | ⟨_, _, e2, _⟩
          · exact ⟨h, e1.trans e2.symm⟩
          · cases e2
        · cases e1
      | method h hq =>
        rcases hcls with ⟨e1, -⟩ | ⟨_, _, e1, e3⟩
        · cases e1
        · rcases hcls' with ⟨e2, -⟩ | ⟨_, _, e2, e4⟩
          · cases e2
          · cases e1
            cases e2
            exact ⟨h, by rw [e3, e4, hq]⟩
    obtain ⟨k, hk0, hk1⟩ := hx w w' rfl rfl hsame.1 hsame.2 he
    exact ⟨_, _, k, hown, hown', hk0, hk1⟩
  obtain ⟨h1, h2⟩ := nt hs
  obtain ⟨t1, t2, t3, e | e⟩ := two_of_list hr hr' fun e => hne (by rw [e])
  · exact key ho ho' hp hp' hs he h1 h2 ⟨t1, t2, t3, e⟩
  · obtain ⟨b, b', k, o1, o2, hk, hb⟩ := key ho' ho hp' hp hs.symm he.symm h2 h1 ⟨t1, t2, t3, e⟩
    exact ⟨b', b, k, o2, o1, hk, hb.symm⟩

end

end Verif
