import Verif.TypeConv
import Verif.DecideKnown
import Mathlib.Data.List.Nodup

/-!
# Names of template instantiations (C22)
-/

set_option autoImplicit false

namespace Verif

/-! ### How `concrete_templates` changes -/

/-- `st'` is `st` after some more instantiations were registered. -/
inductive Grows : Concretes → Concretes → Prop
  | refl {st : Concretes} : Grows st st
  | reg {st st' : Concretes} {cpp : String} (h : AMap.get? st cpp = none)
      (hg : Grows (AMap.insert st cpp ⟨[], concreteIdent st cpp⟩) st') : Grows st st'

theorem Grows.trans {a b c : Concretes} (h : Grows a b) (h' : Grows b c) : Grows a c := by
  induction h with
  | refl => exact h'
  | reg hn _ ih => exact .reg hn (ih h')

theorem grows_thenDo {α β : Type} {st : Concretes} {r : Concretes × CRes α}
    {f : Concretes → α → Concretes × CRes β} (h : Grows st r.1) (hf : ∀ s a, Grows s (f s a).1) :
    Grows st (thenDo r f).1 := by
  obtain ⟨s, r⟩ := r
  cases r with
  | ok a => exact h.trans (hf s a)
  | err e => exact h
  | panic => exact h
  | outOfFuel => exact h

theorem templated_grows (names : CppNameMap) (st : Concretes) (rs : Ty) :
    Grows st (templatedTypename names st rs).1 := by
  rw [templatedTypename]
  split
  · exact .refl
  · exact .refl
  · split
    · exact .refl
    · rename_i hn
      dsimp only
      split
      · exact .reg hn .refl
      · exact .refl

theorem convertArgs_grows {f : Concretes → Ty → Concretes × CRes (Annotated Ty)}
    (hf : ∀ s t, Grows s (f s t).1) : ∀ (args : List Ty) (st : Concretes), Grows st (convertArgs f st args).1
  | [], _ => .refl
  | t :: r, st => grows_thenDo (hf st t) fun s _ => grows_thenDo (convertArgs_grows hf r s) fun _ _ => .refl

theorem convertGeneric_grows {f : Concretes → Ty → Concretes × CRes (Annotated Ty)}
    (hf : ∀ s t, Grows s (f s t).1) (env : ConvEnv) (ctx : ConvCtx) (st : Concretes) (tn : QName)
    (segs : List String) (args : List Ty) (deps : List QName) :
    Grows st (convertGeneric f env ctx st tn segs args deps).1 := by
  rw [convertGeneric.eq_def]
  split
  · exact .refl
  · split
    · split
      · exact .refl
      · split
        · exact .refl
        · split
          · exact .refl
          · exact grows_thenDo (templated_grows _ _ _) fun _ _ => .refl
    · refine grows_thenDo (convertArgs_grows hf _ _) fun s a => ?_
      split <;> exact .refl

theorem convertPlainPath_grows {f : Concretes → Ty → Concretes × CRes (Annotated Ty)}
    (hf : ∀ s t, Grows s (f s t).1) (env : ConvEnv) (ns : List String) (ctx : ConvCtx) (st : Concretes)
    (segs : List String) (args : List Ty) : Grows st (convertPlainPath f env ns ctx st segs args).1 := by
  refine grows_thenDo .refl fun s segs => ?_
  split
  · exact .refl
  · refine grows_thenDo .refl fun s _ => grows_thenDo .refl fun s r => ?_
    split
    · exact .refl
    · exact convertGeneric_grows hf _ _ _ _ _ _ _

/-- Converting a type does nothing to the table of instantiations except registering new ones. -/
theorem convertType_grows (env : ConvEnv) (ns : List String) : ∀ (fuel : Nat) (ctx : ConvCtx)
    (st : Concretes) (ty : Ty), Grows st (convertType env ns fuel ctx st ty).1
  | 0, _, _, _ => .refl
  | fuel + 1, ctx, st, ty => by
    have ih := convertType_grows env ns fuel
    rw [convertType.eq_def]
    dsimp only
    split
    · split
      · exact ih _ _ _
      · split
        · exact ih _ _ _
        · split
          · exact grows_thenDo (ih _ _ _) fun _ _ => .refl
          · split
            · exact grows_thenDo .refl fun s _ => grows_thenDo (ih _ _ _) fun _ _ => .refl
            · exact grows_thenDo (convertPlainPath_grows (ih _) _ _ _ _ _ _) fun _ _ => .refl
    · exact grows_thenDo (ih _ _ _) fun _ _ => .refl
    · exact grows_thenDo (ih _ _ _) fun _ _ => .refl
    · exact grows_thenDo .refl fun s _ => grows_thenDo (ih _ _ _) fun _ _ => .refl
    · exact .refl

/-! ### The specification -/

/-- A run of the type converter: any number of conversions, of any types, in any namespaces and
contexts, whether they succeed or not. -/
inductive Run (env : ConvEnv) : Concretes → Concretes → Prop
  | done {st : Concretes} : Run env st st
  | convert {st st' : Concretes} (ns : List String) (fuel : Nat) (ctx : ConvCtx) (ty : Ty)
      (h : Run env (convertType env ns fuel ctx st ty).1 st') : Run env st st'

theorem Run.grows {env : ConvEnv} {st st' : Concretes} (h : Run env st st') : Grows st st' := by
  induction h with
  | done => exact .refl
  | convert ns fuel ctx ty _ ih => exact (convertType_grows env ns fuel ctx _ ty).trans ih

/-- The tables from which names stay distinct: no two instantiations share a name, and none has a name
which will be invented later, `AutocxxConcrete`⟨n⟩ with n not less than the number of instantiations. -/
structure NamesApart (st : Concretes) : Prop where
  keys : (st.map (·.1)).Nodup
  names : (st.map (·.2.name)).Nodup
  root : ∀ e ∈ st, e.2.ns = []
  later : ∀ e ∈ st, ∀ n, e.2.name = "AutocxxConcrete" ++ toString n → n < st.length

/-! ### Proofs -/

theorem insert_new {κ α : Type} [DecidableEq κ] {m : AMap κ α} {k : κ} {v : α} (h : AMap.get? m k = none) :
    AMap.insert m k v = m ++ [(k, v)] := by
  induction m with
  | nil => rfl
  | cons e r ih =>
    obtain ⟨k', v'⟩ := e
    simp only [AMap.get?] at h
    split at h
    · cases h
    · rename_i hne
      simp only [AMap.insert]
      rw [if_neg hne, ih h, List.cons_append]

theorem get?_none_mem {κ α : Type} [DecidableEq κ] {m : AMap κ α} {k : κ} (h : AMap.get? m k = none) :
    ∀ e ∈ m, e.1 ≠ k := by
  induction m with
  | nil => simp
  | cons e r ih =>
    obtain ⟨k', v'⟩ := e
    simp only [AMap.get?] at h
    split at h
    · cases h
    · rename_i hne
      intro e he
      rcases List.mem_cons.1 he with rfl | he
      · exact hne
      · exact ih h e he

theorem joinWith_getLast (sep : String) (l : List String) (x : String) :
    ∃ p, joinWith sep (l ++ [x]) = p ++ x := by
  induction l with
  | nil => exact ⟨"", by simp [joinWith]⟩
  | cons a r ih =>
    obtain ⟨p, hp⟩ := ih
    cases hr : r ++ [x] with
    | nil => simp at hr
    | cons b r' =>
      refine ⟨a ++ sep ++ p, ?_⟩
      rw [List.cons_append, hr, joinWith, ← hr, hp, String.append_assoc, String.append_assoc,
        String.append_assoc]

theorem splitUnderscore_ne_nil (l : List Char) : splitUnderscore l ≠ [] := by
  cases l with
  | nil => simp [splitUnderscore]
  | cons c r =>
    simp only [splitUnderscore]
    split
    · simp
    · split <;> simp

theorem splitUnderscore_append (l r : List Char) :
    splitUnderscore (l ++ '_' :: r) = splitUnderscore l ++ splitUnderscore r := by
  induction l with
  | nil => simp [splitUnderscore]
  | cons c l ih =>
    simp only [List.cons_append, splitUnderscore]
    split
    · rw [ih, List.cons_append]
    · rw [ih]
      cases hl : splitUnderscore l with
      | nil => exact absurd hl (splitUnderscore_ne_nil l)
      | cons p ps => rfl

theorem syntheticIdent_suffix (cpp : String) : ∃ p, syntheticIdent cpp = p ++ "AutocxxConcrete" := by
  have h : splitUnderscore ((cpp.toList.map fun c => if keptInIdent c then c else '_') ++
      "_AutocxxConcrete".toList) =
      splitUnderscore (cpp.toList.map fun c => if keptInIdent c then c else '_') ++
        ["AutocxxConcrete".toList] := by
    have := splitUnderscore_append (cpp.toList.map fun c => if keptInIdent c then c else '_')
      "AutocxxConcrete".toList
    have e : "_AutocxxConcrete".toList = '_' :: "AutocxxConcrete".toList := by decide
    have e' : splitUnderscore "AutocxxConcrete".toList = ["AutocxxConcrete".toList] := by decide
    rw [e, this, e']
  simp only [syntheticIdent, h, List.filter_append, List.map_append]
  have e : (List.filter (fun x => decide (x ≠ [])) ["AutocxxConcrete".toList]).map String.ofList =
      ["AutocxxConcrete"] := by decide
  rw [e]
  exact joinWith_getLast _ _ _

theorem syntheticIdent_not_fallback (cpp : String) (n : Nat) :
    syntheticIdent cpp ≠ "AutocxxConcrete" ++ dec n := by
  intro h
  obtain ⟨p, hp⟩ := syntheticIdent_suffix cpp
  rw [hp] at h
  have h := congrArg (fun s => s.toList.getLast?) h
  simp only [String.toList_append] at h
  have e : "AutocxxConcrete".toList = "AutocxxConcret".toList ++ ['e'] := by decide
  rw [List.getLast?_append_of_ne_nil _ (dec_ne_nil n), e, ← List.append_assoc, List.getLast?_concat] at h
  have hd := dec_digit n 'e' (List.mem_of_getLast? h.symm)
  exact absurd hd (by decide)

theorem namesApart_reg {st : Concretes} {cpp : String} (hi : NamesApart st) (h : AMap.get? st cpp = none) :
    NamesApart (AMap.insert st cpp ⟨[], concreteIdent st cpp⟩) := by
  have hfresh : ∀ e ∈ st, e.2.name ≠ concreteIdent st cpp := by
    intro e he
    simp only [concreteIdent]
    split
    · intro hc
      exact absurd (hi.later e he _ hc) (Nat.lt_irrefl _)
    · rename_i hn
      intro hc
      exact hn (List.any_eq_true.2 ⟨e, he, by simpa using hc⟩)
  rw [insert_new h]
  refine ⟨?_, ?_, ?_, ?_⟩
  · rw [List.map_append, List.nodup_append]
    refine ⟨hi.keys, by simp, ?_⟩
    intro a ha b hb
    obtain ⟨e, he, rfl⟩ := List.mem_map.1 ha
    simp only [List.map_cons, List.map_nil, List.mem_singleton] at hb
    subst hb
    exact get?_none_mem h e he
  · rw [List.map_append, List.nodup_append]
    refine ⟨hi.names, by simp, ?_⟩
    intro a ha b hb
    obtain ⟨e, he, rfl⟩ := List.mem_map.1 ha
    simp only [List.map_cons, List.map_nil, List.mem_singleton] at hb
    subst hb
    exact hfresh e he
  · intro e he
    rcases List.mem_append.1 he with he | he
    · exact hi.root e he
    · rw [List.mem_singleton.1 he]
  · intro e he n hn
    rw [List.length_append]
    rcases List.mem_append.1 he with he | he
    · have := hi.later e he n hn
      simp; omega
    · rw [List.mem_singleton.1 he] at hn
      simp only [concreteIdent] at hn
      split at hn
      · have := String.append_right_inj _ |>.1 hn
        have := dec_inj (m := st.length) (n := n) this
        simp; omega
      · exact absurd hn (syntheticIdent_not_fallback cpp n)

theorem Grows.namesApart {st st' : Concretes} (h : Grows st st') (hi : NamesApart st) : NamesApart st' := by
  induction h with
  | refl => exact hi
  | reg hn _ ih => exact ih (namesApart_reg hi hn)

theorem Grows.get? {st st' : Concretes} (h : Grows st st') {k : String} {q : QName}
    (hk : AMap.get? st k = some q) : AMap.get? st' k = some q := by
  induction h with
  | refl => exact hk
  | reg hn _ ih =>
    rename_i cpp _
    refine ih ?_
    rw [AMap.get?_insert_of_ne _ _ (fun e => by rw [e, hk] at hn; cases hn)]
    exact hk

/-- The name given to an instantiation is the one registered for its C++ spelling. -/
theorem templated_ok {names : CppNameMap} {st st' : Concretes} {rs : Ty} {r : QName × Option NullApi}
    (h : templatedTypename names st rs = (st', .ok r)) :
    ∃ cpp, names.typeToCpp rs = .ok cpp ∧ AMap.get? st' cpp = some r.1 := by
  rw [templatedTypename] at h
  split at h
  · cases h
  · cases h
  · rename_i cpp hcpp
    refine ⟨cpp, hcpp, ?_⟩
    split at h
    · rename_i tn htn
      cases h
      exact htn
    · dsimp only at h
      split at h
      · cases h
        exact AMap.get?_insert_self _ _ _
      · cases h

theorem namesApart_inj {st : Concretes} (hi : NamesApart st) {k k' : String} {q : QName}
    (h : AMap.get? st k = some q) (h' : AMap.get? st k' = some q) : k = k' := by
  have h1 := AMap.get?_mem h
  have h2 := AMap.get?_mem h'
  have := List.inj_on_of_nodup_map hi.names h1 h2 rfl
  exact congrArg Prod.fst this

/-- **C22**: whatever else is converted before, in between and after, two template instantiations get
the same Rust type exactly when they are spelt the same in C++. Missing for the full property: the
table with which the converter starts has to keep names apart, see `concrete_name_clash_false`. -/
theorem template_names_partial (env : ConvEnv) (st₀ st₁ st₂ st₃ st₄ : Concretes) (rs₁ rs₂ : Ty)
    (r₁ r₂ : QName × Option NullApi) (h0 : NamesApart st₀) (hr1 : Run env st₀ st₁)
    (h1 : templatedTypename env.names st₁ rs₁ = (st₂, .ok r₁)) (hr2 : Run env st₂ st₃)
    (h2 : templatedTypename env.names st₃ rs₂ = (st₄, .ok r₂)) :
    r₁.1 = r₂.1 ↔ env.names.typeToCpp rs₁ = env.names.typeToCpp rs₂ := by
  obtain ⟨c1, e1, g1⟩ := templated_ok h1
  obtain ⟨c2, e2, g2⟩ := templated_ok h2
  have t1 := templated_grows env.names st₁ rs₁
  have t2 := templated_grows env.names st₃ rs₂
  rw [h1] at t1
  rw [h2] at t2
  have g1' := (hr2.grows.trans t2).get? g1
  have hi := ((hr1.grows.trans t1).trans (hr2.grows.trans t2)).namesApart h0
  rw [e1, e2]
  constructor
  · intro he
    rw [he] at g1'
    rw [namesApart_inj hi g1' g2]
  · intro he
    cases he
    exact Option.some.inj (g1'.symm.trans g2)

/-- **C22**: an instantiation met before is not declared again, and a new one is declared under the name
which is used for it. -/
theorem template_declared_once (names : CppNameMap) (st st' : Concretes) (rs : Ty) (cpp : String)
    (r : QName × Option NullApi) (hc : names.typeToCpp rs = .ok cpp)
    (h : templatedTypename names st rs = (st', .ok r)) :
    ((∃ q, AMap.get? st cpp = some q) → r.2 = none ∧ st' = st) ∧
    (AMap.get? st cpp = none →
      r.2 = some (.concreteType ⟨r.1, none⟩ (some rs) cpp) ∧ st' = st ++ [(cpp, r.1)]) := by
  rw [templatedTypename, hc] at h
  dsimp only at h
  split at h
  · rename_i tn htn
    cases h
    exact ⟨fun _ => ⟨rfl, rfl⟩, fun hn => by rw [htn] at hn; cases hn⟩
  · rename_i hn
    split at h
    · cases h
      exact ⟨fun ⟨q, hq⟩ => (by rw [hn] at hq; cases hq), fun _ => ⟨rfl, insert_new hn⟩⟩
    · cases h

/-! ### The names themselves -/

theorem splitUnderscore_no_underscore : ∀ (l : List Char), ∀ p ∈ splitUnderscore l, '_' ∉ p
  | [], p, hp => by simp [splitUnderscore] at hp; simp [hp]
  | c :: r, p, hp => by
    have ih := splitUnderscore_no_underscore r
    simp only [splitUnderscore] at hp
    split at hp
    · rcases List.mem_cons.1 hp with rfl | hp
      · simp
      · exact ih p hp
    · rename_i hc
      split at hp
      · rename_i q qs hq
        rcases List.mem_cons.1 hp with rfl | hp
        · simp only [List.mem_cons, not_or]
          exact ⟨fun e => hc e.symm, ih q (hq ▸ .head _)⟩
        · exact ih p (hq ▸ .tail _ hp)
      · simp at hp
        subst hp
        simpa using fun e => hc e.symm

/-- No two underscores in a row. -/
def NoDoubleUnderscore (s : String) : Prop := ¬ ['_', '_'] <:+: s.toList

theorem infix_cons_pair {a b c : Char} {l : List Char} (h : [a, b] <:+: c :: l) :
    (c = a ∧ l.head? = some b) ∨ [a, b] <:+: l := by
  rcases List.infix_cons_iff.1 h with h | h
  · left
    obtain ⟨t, ht⟩ := h
    simp only [List.cons_append, List.nil_append, List.cons.injEq] at ht
    exact ⟨ht.1.symm, by rw [← ht.2]; rfl⟩
  · exact .inr h

theorem no_pair_append {p l : List Char} (hp : '_' ∉ p) (hne : p ≠ []) (hl : ¬ ['_', '_'] <:+: l)
    : ¬ ['_', '_'] <:+: p ++ l := by
  induction p with
  | nil => exact absurd rfl hne
  | cons c r ih =>
    intro h
    rcases infix_cons_pair h with ⟨rfl, _⟩ | h
    · exact hp (.head _)
    · cases r with
      | nil => exact hl h
      | cons d r => exact ih (fun hm => hp (.tail _ hm)) (by simp) h

theorem joinWith_underscore : ∀ (l : List (List Char)), (∀ p ∈ l, '_' ∉ p ∧ p ≠ []) →
    ¬ ['_', '_'] <:+: (joinWith "_" (l.map String.ofList)).toList ∧
    (joinWith "_" (l.map String.ofList)).toList.head? ≠ some '_'
  | [], _ => by simp [joinWith]
  | [p], h => by
    obtain ⟨h1, h2⟩ := h p (.head _)
    simp only [List.map_cons, List.map_nil, joinWith, String.toList_ofList]
    refine ⟨fun hc => h1 (hc.subset (.head _)), fun hc => h1 ?_⟩
    exact List.mem_of_mem_head? hc
  | p :: q :: r, h => by
    obtain ⟨h1, h2⟩ := h p (.head _)
    obtain ⟨i1, i2⟩ := joinWith_underscore (q :: r) (fun x hx => h x (.tail _ hx))
    simp only [List.map_cons, joinWith] at i1 i2 ⊢
    simp only [String.toList_append, String.toList_ofList, List.append_assoc]
    have hu : "_".toList = ['_'] := by decide
    rw [hu, List.singleton_append]
    constructor
    · refine no_pair_append h1 h2 ?_
      intro hc
      rcases infix_cons_pair hc with ⟨_, hc⟩ | hc
      · exact i2 hc
      · exact i1 hc
    · cases p with
      | nil => exact absurd rfl h2
      | cons c p => intro hc; simp at hc; exact h1 (hc ▸ .head _)

/-- **C22**: the names chosen never contain two underscores in a row, which cxx does not accept. -/
theorem template_name_no_double_underscore (st : Concretes) (cpp : String) :
    NoDoubleUnderscore (concreteIdent st cpp) := by
  simp only [concreteIdent, NoDoubleUnderscore]
  split
  · intro h
    have h := h.subset (.head (a := '_') _)
    rw [String.toList_append] at h
    rcases List.mem_append.1 h with h | h
    · exact absurd h (by decide)
    · exact absurd (dec_digit _ _ h) (by decide)
  · refine (joinWith_underscore _ fun p hp => ?_).1
    obtain ⟨h1, h2⟩ := List.mem_filter.1 hp
    exact ⟨splitUnderscore_no_underscore _ p h1, by simpa using h2⟩

/-! ### Examples and counterexamples -/

/-- `int`, as bindgen writes it. -/
def exInt : Ty := .path ["std", "os", "raw", "c_int"] []

/-- `Foo<t>`. -/
def exFoo (t : Ty) : Ty := .path ["root", "Foo"] [t]

/-- `Foo<int>` and `Foo<int*>` would get the same name, and so the second gets an invented one; the
second time `Foo<int>` is met it gets its first name again. -/
example : NamesApart [] ∧
    ∃ s₁ s₂ a b c, convertType {} [] 3 .outerType [] (exFoo exInt) = (s₁, .ok a) ∧
      convertType {} [] 3 .outerType s₁ (exFoo (.ptr true exInt)) = (s₂, .ok b) ∧
      convertType {} [] 3 .outerType s₂ (exFoo exInt) = (s₂, .ok c) ∧
      a.ty = .path ["output", "Foo_int_AutocxxConcrete"] [] ∧
      b.ty = .path ["output", "AutocxxConcrete1"] [] ∧ c.ty = a.ty ∧
      a.extra.map Api.name = [⟨[], "Foo_int_AutocxxConcrete"⟩] ∧ c.extra = [] := by
  refine ⟨⟨by simp, by simp, by simp, by simp⟩, ?_⟩
  refine ⟨[("Foo<int>", ⟨[], "Foo_int_AutocxxConcrete"⟩)],
    [("Foo<int>", ⟨[], "Foo_int_AutocxxConcrete"⟩), ("Foo<int*>", ⟨[], "AutocxxConcrete1"⟩)],
    { ty := .path ["output", "Foo_int_AutocxxConcrete"] [],
      deps := [⟨[], "Foo"⟩, ⟨[], "Foo_int_AutocxxConcrete"⟩],
      extra := [.concreteType ⟨⟨[], "Foo_int_AutocxxConcrete"⟩, none⟩
        (some (.path ["output", "Foo"] [exInt])) "Foo<int>"], kind := .regular },
    { ty := .path ["output", "AutocxxConcrete1"] [], deps := [⟨[], "Foo"⟩, ⟨[], "AutocxxConcrete1"⟩],
      extra := [.concreteType ⟨⟨[], "AutocxxConcrete1"⟩, none⟩
        (some (.path ["output", "Foo"] [.ptr true exInt])) "Foo<int*>"], kind := .regular },
    { ty := .path ["output", "Foo_int_AutocxxConcrete"] [],
      deps := [⟨[], "Foo"⟩, ⟨[], "Foo_int_AutocxxConcrete"⟩], extra := [], kind := .regular }, ?_⟩
  decide_known

/-- `std::unique_ptr<t>`. -/
def exUnique (t : Ty) : Ty := .path ["root", "std", "unique_ptr"] [t]

/-- The APIs declared while three types are converted in turn with a new converter. -/
def exPhase1 : List NullApi :=
  let r₁ := convertType {} [] 5 .outerType [] (exUnique (.path ["root", "Bar"] [exInt]))
  let r₂ := convertType {} [] 5 .outerType r₁.1 (exFoo exInt)
  let r₃ := convertType {} [] 5 .outerType r₂.1 (exFoo (.ptr true exInt))
  [r₁, r₂, r₃].flatMap fun r => match r.2 with
    | .ok a => a.extra
    | _ => []

/-- **C22 is false** across phases: after one phase met `std::unique_ptr<Bar<int>>` (whose argument's
declaration is lost), `Foo<int>` and `Foo<int*>`, the next phase's converter, which is built from the
declarations left by the first, gives `Foo<int**>` the name `Foo<int*>` already has. -/
theorem concrete_name_clash_false :
    ∃ q st, Api.concreteType ⟨q, none⟩ (some (.path ["output", "Foo"] [.ptr true exInt])) "Foo<int*>" ∈ exPhase1 ∧
      st = (ConvEnv.ofApis (fun _ : Unit => none) {} exPhase1).2 ∧
      (templatedTypename [] st (.path ["output", "Foo"] [.ptr true (.ptr true exInt)])).2 =
        .ok (q, some (.concreteType ⟨q, none⟩ (some (.path ["output", "Foo"] [.ptr true (.ptr true exInt)]))
          "Foo<int**>")) := by
  refine ⟨⟨[], "AutocxxConcrete2"⟩, _, ?_, rfl, ?_⟩
  · decide_known
  · decide_known

/-- **C22 is false** for names which start with an underscore and a digit: the underscore is removed, and
the rest is not an identifier. `_3D<int>` makes the program panic. -/
theorem template_name_panic_false :
    (convertType {} [] 3 .outerType [] (.path ["root", "_3D"] [exInt])).2 = .panic ∧
    (convertType {} [] 3 .outerType [] (.path ["root", "_3D"] [])).2 =
      .ok { ty := .path ["output", "_3D"] [], deps := [⟨[], "_3D"⟩], kind := .regular } := by
  decide_known

end Verif
