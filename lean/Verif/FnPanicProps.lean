import Verif.ConvAgainProps
import Verif.FnKindProps
import Verif.ApiVecProps

/-!
# The analysis of functions does not panic
-/

set_option autoImplicit false

namespace Verif

/-- A run which does not panic, and whose result has a property. -/
def Safe {α : Type} (P : α → Prop) (r : PassRun α) : Prop := r ≠ .panic ∧ ∀ a, r = .done a → P a

theorem Safe.done {α : Type} {P : α → Prop} {a : α} (h : P a) : Safe P (.done a) :=
  ⟨fun h => (by cases h), fun b hb => by cases hb; exact h⟩

theorem Safe.bind {α β : Type} {P : α → Prop} {Q : β → Prop} {r : PassRun α} {f : α → PassRun β} (h : Safe P r)
    (hf : ∀ a, r = .done a → P a → Safe Q (f a)) : Safe Q (r.bind f) := by
  cases r with
  | done a => exact hf a rfl (h.2 a rfl)
  | panic => exact absurd rfl h.1
  | diverges => exact ⟨fun h => (by cases h), fun b hb => by cases hb⟩

/-! ### Identifiers -/

/-- A character which may stand in an identifier. -/
def identChar (c : Char) : Bool := c.isAlphanum || c = '_' || 128 ≤ c.toNat

theorem ident_chars {s : String} (h : isIdentText s = true) : s.toList.all identChar = true := by
  rw [isIdentText] at h
  split at h
  · cases h
  · rename_i c r he
    rw [he, List.all_cons]
    simp only [Bool.and_eq_true] at h ⊢
    refine ⟨?_, h.2⟩
    rw [identChar]
    have h1 := h.1
    simp only [Bool.or_eq_true, decide_eq_true_eq] at h1 ⊢
    rcases h1 with (h1 | h1) | h1
    · exact .inl (.inl (by simp [Char.isAlphanum, h1]))
    · exact .inl (.inr h1)
    · exact .inr h1

theorem ident_append {s t : String} (h : isIdentText s = true) (ht : t.toList.all identChar = true) :
    isIdentText (s ++ t) = true := by
  rw [isIdentText] at h ⊢
  rw [String.toList_append]
  split at h
  · cases h
  · rename_i c r he
    rw [he, List.cons_append]
    simp only [Bool.and_eq_true, List.all_append] at h ⊢
    exact ⟨h.1, h.2, ht⟩

theorem identChar_dec (n : Nat) : (dec n).toList.all identChar = true := by
  rw [List.all_eq_true]
  intro c hc
  have := dec_digit n c hc
  simp [identChar, Char.isAlphanum, this]

theorem joinU_ident : ∀ {l : List String}, l ≠ [] → (∀ s ∈ l, isIdentText s = true) → isIdentText (joinU l) = true
  | [a], _, h => h a (by simp)
  | a :: b :: r, _, h => by
    rw [joinU]
    have ih := joinU_ident (l := b :: r) (by simp) (fun s hs => h s (List.mem_cons_of_mem _ hs))
    exact ident_append (ident_append (h a (by simp)) (by decide)) (ident_chars ih)

theorem bump_ident {reg : AMap String Nat} {n : String} (h : isIdentText n = true) :
    isIdentText (bumpOffset reg n).2 = true := by
  rw [bumpOffset]
  dsimp only
  split
  · exact h
  · exact ident_append_dec h _

theorem overload_ident {s : FnState} {ns : List String} {ty : Option String} {n : String} (h : isIdentText n = true) :
    isIdentText (overloadName s ns ty n).2 = true := by
  rw [overloadName]
  dsimp only
  rw [OverloadTracker.getName.eq_def]
  cases ty with
  | some t => exact bump_ident h
  | none => exact bump_ident h

theorem bridge_ident {t : BridgeNameTracker} {r : BridgeReq} (hf : isIdentText r.found = true)
    (hty : ∀ x, r.ty = some x → isIdentText x = true) (hns : ∀ x ∈ r.ns, isIdentText x = true) :
    isIdentText (t.getName r).2 = true := by
  have hp : isIdentText r.plain = true := by
    rw [BridgeReq.plain]
    split
    · decide
    · exact hf
  have hq : isIdentText r.qualified = true := by
    refine joinU_ident (by simp) ?_
    intro s hs
    simp only [List.mem_append, List.mem_singleton, Option.mem_toList] at hs
    rcases hs with hs | hs | rfl
    · exact hns s hs
    · exact hty s hs
    · exact hp
  rw [BridgeNameTracker.getName]
  dsimp only
  split
  · exact hp
  · split
    · exact hq
    · exact ident_append (ident_append hq (by decide)) (identChar_dec _)

theorem hexChar_ident : ∀ k, k < 16 → identChar (Nat.digitChar k) = true := by decide

theorem hex_chars (n : Nat) : (Nat.toDigits 16 n).all identChar = true := by
  induction n using Nat.strongRecOn with
  | _ n ih =>
    rw [Nat.toDigits_eq_if (by decide)]
    split
    · rename_i h
      simp [hexChar_ident n h]
    · rw [List.all_append, ih _ (by omega)]
      simp [hexChar_ident _ (Nat.mod_lt n (by decide : 0 < 16))]

theorem wrapper_ident {env : FnEnv} {n : String} (h : isIdentText n = true) : isIdentText (wrapperName env n) = true := by
  rw [wrapperName, uniquify]
  refine ident_append (ident_append (ident_append (ident_append (ident_append h ?_) (by decide)) (by decide))
    (by decide)) ?_
  · split <;> decide
  · rw [String.toList_ofList]
    exact hex_chars _

theorem ideal_safe {ident : Ident} {cpp : Option String} (hi : isIdentText ident = true)
    (hc : ∀ c, cpp = some c → isIdentText c = true) :
    Safe (fun n => isIdentText n = true) (idealRustName ident cpp) := by
  cases cpp with
  | none => exact .done hi
  | some c =>
    rw [idealRustName]
    split
    · exact .done hi
    · have hb : nameBadForRust c ≠ .panic := by
        rw [nameBadForRust, validateStrOkForRust, hc c rfl]
        simp only [Bool.not_true, Bool.false_eq_true, if_false]
        split <;> rename_i h <;> split at h <;> simp_all
      refine Safe.bind (P := fun _ => True) ⟨hb, fun _ _ => trivial⟩ fun bad _ _ => .done ?_
      split
      · exact ident_append (hc c rfl) (by decide)
      · exact hc c rfl

/-! ### Parameters -/

/-- No reference in the manner of Rust: bindgen writes references of C++ as pointers with a marker. -/
inductive NoRef : Ty → Prop
  | path {segs : List String} {args : List Ty} (h : ∀ a ∈ args, NoRef a) : NoRef (.path segs args)
  | ptr {mu : Bool} {e : Ty} (h : NoRef e) : NoRef (.ptr mu e)
  | array {e : Ty} {n : String} (h : NoRef e) : NoRef (.array e n)
  | other {s : String} : NoRef (.other s)

/-- Not a mutable reference. -/
def TopOk (t : Ty) : Prop := ∀ lt e, t ≠ .ref true lt e

/-- What the analyser knows about the items. -/
structure GoodFnEnv (env : FnEnv) : Prop where
  conv : GoodEnv env.conv
  top : ∀ q t, AMap.get? env.conv.typedefs q = some t → TopOk t
  allow : ∀ n, env.conv.cfg.isOnAllowlist env.hash n ≠ none

/-- The names which were made up so far. -/
structure GoodState (s : FnState) : Prop where
  concretes : GoodSt s.concretes
  inv : s.extra.Inv
  extra : ∀ n r c, .concreteType n r c ∈ s.extra.apis → (GoodQ n.name ∧ ¬ IsPin n.name) ∧ ∀ t, r = some t → GoodTy t

section
open ApiVec

theorem mem_push {T S F : Type} {v : ApiVec T S F} (h : v.Inv) {a x : Api T S F} (hx : x ∈ (v.push a).apis) :
    x ∈ v.apis ∨ x = a ∨ x = duplicateMarker a.name := by
  rw [push_apis h] at hx
  split at hx
  · split at hx
    · exact .inl hx
    · rcases List.mem_append.1 hx with hx | hx
      · exact .inl (List.mem_filter.1 hx).1
      · exact .inr (.inr (List.mem_singleton.1 hx))
  · rcases List.mem_append.1 hx with hx | hx
    · exact .inl hx
    · exact .inr (.inl (List.mem_singleton.1 hx))

theorem extend_mem_cases {T S F : Type} : ∀ (l : List (Api T S F)) {v : ApiVec T S F}, v.Inv → ∀ {x : Api T S F},
    x ∈ (v.extend l).apis → x ∈ v.apis ∨ x ∈ l ∨ ∃ q, x = duplicateMarker q
  | [], _, _, _, hx => .inl hx
  | a :: l, v, hv, x, hx => by
    rcases extend_mem_cases l (push_inv hv a) hx with h | h | h
    · rcases mem_push hv h with h | rfl | rfl
      · exact .inl h
      · exact .inr (.inl List.mem_cons_self)
      · exact .inr (.inr ⟨_, rfl⟩)
    · exact .inr (.inl (List.mem_cons_of_mem _ h))
    · exact .inr (.inr h)

end

theorem endsAt_top {m : AMap QName Ty} (h : ∀ q t, AMap.get? m q = some t → TopOk t) {q : QName} {r : Option Ty}
    (he : EndsAt m q r) : ∀ t, r = some t → TopOk t := by
  induction he with
  | notTypedef h' => exact fun _ e => by cases e
  | unnamed h' ht =>
    intro t e
    cases e
    exact h _ _ h'
  | last h' ha hr _ =>
    intro t e
    cases e
    exact fun _ _ e => by cases e
  | hop h' hr ih => exact ih

theorem convert_top {env : ConvEnv} (he : ∀ q t, AMap.get? env.typedefs q = some t → TopOk t) {ns : List String} :
    ∀ (n : Nat) (ctx : ConvCtx) (st st' : Concretes) (ty : Ty) (a : Annotated Ty), NoRef ty →
      convertType env ns n ctx st ty = (st', .ok a) → TopOk a.ty := by
  intro n
  induction n with
  | zero => intro _ _ _ _ _ _ h; cases h
  | succ n ih =>
    intro ctx st st' ty a hn h
    cases convertType_ok h with
    | marker hm h' hr =>
      cases hn with
      | path hn => exact ih _ _ _ _ _ (hn _ (unwrapMarker_mem h')) hr
    | lvalue h' hr =>
      rename_i mu e b
      cases mu <;> exact fun _ _ e => by cases e
    | rvalue h' hp hr => exact fun _ _ e => by cases e
    | ref hr => cases hn
    | array hr => exact fun _ _ e => by cases e
    | ptr hp hr => exact fun _ _ e => by cases e
    | done hp =>
      rcases prepared_inv hp with ⟨_, e⟩ | ⟨_, _, _, _, _, e⟩ | ⟨mu, e', he', e⟩ | ⟨t, he', h1, _, e⟩
      · cases e
      · cases e
      · cases e; exact fun _ _ e => by cases e
      · cases e; exact endsAt_top he he' _ rfl
    | plain hp hf => rcases finishPath_ok hf with ⟨rfl, _⟩ | ⟨rfl, _⟩ <;> exact fun _ _ e => by cases e
    | concrete hp hb hi hqn hig ht hf =>
      rcases finishPath_ok hf with ⟨rfl, _⟩ | ⟨rfl, _⟩ <;> exact fun _ _ e => by cases e
    | container hp hb hargs hk hf =>
      rcases finishPath_ok hf with ⟨rfl, _⟩ | ⟨rfl, _⟩ <;> exact fun _ _ e => by cases e

/-- A type which is said to be the holder of a subclass has the name of one. -/
theorem convert_holder {env : ConvEnv} {ns : List String} :
    ∀ (n : Nat) (ctx : ConvCtx) (st st' : Concretes) (ty : Ty) (a : Annotated Ty) (id : Ident),
      convertType env ns n ctx st ty = (st', .ok a) → a.kind = .subclassHolder id → subclassFromHolder id ≠ none := by
  intro n
  induction n with
  | zero => intro _ _ _ _ _ _ h; cases h
  | succ n ih =>
    intro ctx st st' ty a id h hk
    cases convertType_ok h with
    | marker hm h' hr => exact ih _ _ _ _ _ _ hr hk
    | lvalue h' hr =>
      rename_i mu e b
      cases mu <;> cases hk
    | rvalue h' hp hr => cases hk
    | ref hr => cases hk
    | array hr => cases hk
    | ptr hp hr => cases hk
    | done hp =>
      rcases prepared_inv hp with ⟨_, e⟩ | ⟨_, _, _, _, _, e⟩ | ⟨mu, e', he', e⟩ | ⟨t, he', h1, _, e⟩
      · cases e
      · cases e
      · cases e; cases hk
      · cases e; cases hk
    | plain hp hf => rcases finishPath_ok hf with ⟨rfl, _⟩ | ⟨rfl, _⟩ <;> cases hk
    | concrete hp hb hi hqn hig ht hf => rcases finishPath_ok hf with ⟨rfl, _⟩ | ⟨rfl, _⟩ <;> cases hk
    | container hp hb hargs hk' hf =>
      rename_i k
      rcases finishPath_ok hf with ⟨rfl, _⟩ | ⟨rfl, _⟩
      · dsimp only at hk
        subst hk
        obtain ⟨_, s, args, r, q, h1, h2, h3, e, hs⟩ := confirmPayload_holder hk' (fun h => by cases h)
        cases e
        rw [Config.isSubclassHolder, List.any_eq_true] at hs
        obtain ⟨sc, -, hs⟩ := hs
        rw [subclassFromHolder, ← of_decide_eq_true hs, stripSuffix_append]
        simp
      · cases hk

/-- What a converted parameter is known to be. -/
structure ArgFacts (a : Annotated Ty) (isSelf : Bool) : Prop where
  good : GoodConv a
  describes : Describes a.kind a.ty
  top : TopOk a.ty
  holder : ∀ id, a.kind = .subclassHolder id → subclassFromHolder id ≠ none
  self : isSelf = true → (∃ mu e, a.ty = .ptr mu e) ∨ (∃ lt e, a.ty = .ref false lt e) ∨
    ∃ s lt e r, a.ty = .path s (.ref true lt e :: r)

theorem argConversion_some {env : FnEnv} {m : ArgMode} {a : Annotated Ty} {isSelf pl : Bool} (h : ArgFacts a isSelf) :
    argConversion env m a isSelf pl ≠ none := by
  rw [argConversion]
  split
  · rename_i holder hk
    intro e
    exact h.holder _ hk (Option.map_eq_none_iff.1 e)
  · rename_i hk
    split
    · exact fun e => by cases e
    · split
      · rename_i segs args hty
        obtain ⟨q, hq, -⟩ := goodTy_path (hty ▸ h.good.1)
        rw [pathConversion, hq]
        dsimp only
        split
        · rename_i hc
          obtain ⟨-, hr, -⟩ := hc
          have hd := h.describes
          rw [hty] at hd
          simp only [decide_eq_true_eq] at hr
          rcases hr with hr | hr
          · rw [hr] at hd
            obtain ⟨_, _, _, e⟩ := hd
            cases e
          · rcases h.self hr with ⟨_, _, e⟩ | ⟨_, _, e⟩ | ⟨s, lt, x, r, e⟩
            · rw [hty] at e; cases e
            · rw [hty] at e; cases e
            · rw [hty] at e
              cases e
              exact fun e => by cases e
        · split
          · split <;> exact fun e => by cases e
          · split
            · exact fun e => by cases e
            · split <;> exact fun e => by cases e
      · split
        · exact fun e => by cases e
        · split
          · exact fun e => by cases e
          · split <;> exact fun e => by cases e
      · rename_i mu l e hty
        split
        · split
          · rename_i hm
            subst hm
            exact absurd hty (h.top _ _)
          · exact fun e => by cases e
        · exact fun e => by cases e
      · exact fun e => by cases e

theorem boxed_state {env : FnEnv} (he : GoodFnEnv env) {ns : List String} (hns : ∀ x ∈ ns, GoodName x) {s : FnState}
    (hs : GoodState s) {ty : Ty} (ht : GoodTy ty) :
    Safe (fun p => GoodState p.1 ∧ Grows s.concretes p.1.concretes) (convertBoxed env s ns ty) := by
  obtain ⟨h1, h2, h3⟩ := convert_fine he.conv hns env.fuel .outerType s.concretes ty hs.concretes ht
  have hg := convertType_grows env.conv ns env.fuel .outerType s.concretes ty
  rw [convertBoxed]
  cases hc : convertType env.conv ns env.fuel .outerType s.concretes ty with
  | mk st r =>
    rw [hc] at h1 h2 h3 hg
    cases r with
    | panic => exact absurd rfl h2
    | outOfFuel => exact ⟨fun h => (by cases h), fun b hb => by cases hb⟩
    | err e => exact .done ⟨⟨h1, hs.inv, hs.extra⟩, hg⟩
    | ok a =>
      refine .done ⟨⟨h1, ApiVec.extend_inv hs.inv _, ?_⟩, hg⟩
      intro n r c hn
      rcases extend_mem_cases _ hs.inv hn with hn | hn | ⟨q, hq⟩
      · exact hs.extra n r c hn
      · have := (h3 a rfl).2 _ hn
        exact ⟨this.1, fun t ht => this.2 n t c (by rw [ht])⟩
      · cases hq

/-- The type of a parameter as it is handed to the converter. -/
structure GoodParam (ty : Ty) (isSelf : Bool) : Prop where
  good : GoodTy ty
  noref : NoRef ty
  self : isSelf = true → (∃ mu e, ty = .ptr mu e) ∨ ∃ mu e, ty = .path ["__bindgen_marker_Reference"] [.ptr mu e]

theorem convert_marker {env : ConvEnv} {ns : List String} {n : Nat} {ctx : ConvCtx} {st : Concretes} {mu : Bool} {e : Ty} :
    convertType env ns (n + 1) ctx st (.path ["__bindgen_marker_Reference"] [.ptr mu e]) =
      thenDo (convertType env ns n .withinReference st e) fun st a =>
        (st, .ok { a with
          ty := if mu then .path ["core", "pin", "Pin"] [.ref true none a.ty] else .ref false none a.ty
          kind := if mu then .mutableReference else .reference }) := by
  rw [convertType]
  simp only [unwrapMarker, unwrapReference, List.cons.injEq, String.reduceEq, and_true, if_false, if_true,
    Bool.false_eq_true, List.head?_cons]

theorem boxed_facts {env : FnEnv} (he : GoodFnEnv env) {ns : List String} (hns : ∀ x ∈ ns, GoodName x) {s s' : FnState}
    (hs : GoodState s) {ty : Ty} {isSelf : Bool} (ht : GoodParam ty isSelf) {a : Annotated Ty}
    (h : convertBoxed env s ns ty = .done (s', .ok a)) : ArgFacts a isSelf := by
  obtain ⟨st, hc, -⟩ := convertBoxed_ok h
  have hf := convert_fine he.conv hns env.fuel .outerType s.concretes ty hs.concretes ht.good
  rw [hc] at hf
  refine ⟨hf.2.2 a rfl, kind_describes _ _ _ _ _ _ _ _ hc, convert_top he.top _ _ _ _ _ _ ht.noref hc,
    fun id => convert_holder _ _ _ _ _ _ id hc, ?_⟩
  intro hself
  cases hfu : env.fuel with
  | zero => rw [hfu] at hc; cases hc
  | succ k =>
    rw [hfu] at hc
    rcases ht.self hself with ⟨mu, e, rfl⟩ | ⟨mu, e, rfl⟩
    · cases convertType_ok hc with
      | ptr hp hr => exact .inl ⟨_, _, rfl⟩
    · rw [convert_marker] at hc
      obtain ⟨st2, b, -, hc⟩ := thenDo_ok hc
      cases hc
      cases mu with
      | true => exact .inr (.inr ⟨_, _, _, _, rfl⟩)
      | false => exact .inr (.inl ⟨_, _, rfl⟩)

/-- The step from one state of the analysis to another. -/
def Onward (s s' : FnState) : Prop := GoodState s' ∧ Grows s.concretes s'.concretes

theorem Onward.trans {a b c : FnState} (h1 : Onward a b) (h2 : Onward b c) : Onward a c := ⟨h2.1, h1.2.trans h2.2⟩

theorem namedArg_safe {env : FnEnv} (he : GoodFnEnv env) {ns : List String} (hns : ∀ x ∈ ns, GoodName x) {s : FnState}
    (hs : GoodState s) {m : ArgMode} {name : Ident} {ty : Ty} {self : Option (QName × ReceiverMutability)} {into : Bool}
    (ht : GoodParam ty self.isSome) :
    Safe (fun p => Onward s p.1) (convertNamedArg env s ns m name ty self into) := by
  rw [convertNamedArg]
  refine Safe.bind (boxed_state he hns hs ht.good) fun ⟨s', r⟩ hr hst => ?_
  cases r with
  | error e => exact .done hst
  | ok a =>
    have hf := boxed_facts he hns hs ht hr
    have hne := argConversion_some (env := env) (m := m)
      (pl := (into || decide (m.force = some .fromPlacementParamToNewReturn))) hf
    dsimp only
    cases hc : argConversion env m a self.isSome (into || decide (m.force = some .fromPlacementParamToNewReturn)) with
    | none => exact absurd hc hne
    | some c => exact .done hst

/-- A parameter as bindgen writes it. -/
inductive GoodInput : FnArg → Prop
  | typed {name : Ident} {ty : Ty} (hn : isIdentText name = true) (hg : GoodTy ty) (hr : NoRef ty) :
      GoodInput (.typed name ty)

theorem marker_good {ty : Ty} (h : GoodTy ty) : GoodTy (.path ["__bindgen_marker_Reference"] [ty]) := by
  refine .path (q := ⟨[], "__bindgen_marker_Reference"⟩) (by decide) ?_ (by simp) (by simpa using h)
  intro x hx
  simp only [QName.segs, List.nil_append, List.mem_singleton] at hx
  subst hx
  exact ⟨by decide, by decide⟩

theorem thisType_safe {v : Option QName} (hv : ∀ q, v = some q → GoodQ q ∧ ¬ IsPin q) {diag : QName} {ty : Ty}
    (hg : GoodTy ty) (hr : NoRef ty) :
    Safe (fun r => ∀ p, r = .ok p → GoodTy p.2 ∧ NoRef p.2 ∧ (∃ mu e, p.2 = .ptr mu e) ∧ GoodQ p.1.1)
      (thisType v diag ty) := by
  cases ty with
  | ptr mu e =>
    cases e with
    | path segs args =>
      cases v with
      | some q =>
        obtain ⟨h1, h2⟩ := hv q rfl
        refine .done ?_
        intro p hp
        cases hp
        exact ⟨.ptr (toTypePath_good h1 h2 (by simp)), .ptr (.path (by simp)), ⟨_, _, rfl⟩, h1⟩
      | none =>
        rw [thisType.eq_def]
        dsimp only
        cases hg with
        | ptr hg' =>
          obtain ⟨q, h1, h2, -, h4⟩ := goodTy_path hg'
          split
          · rename_i hn
            exfalso
            split at hn
            · rename_i s b hm
              obtain ⟨q', h1', -⟩ := goodTy_path (h4 _ (unwrapMarker_mem hm))
              rw [h1'] at hn
              cases hn
            · rw [h1] at hn
              cases hn
          · rename_i q' hq'
            have hgq : GoodQ q' := by
              split at hq'
              · rename_i s b hm
                obtain ⟨q2, h1', h2', -⟩ := goodTy_path (h4 _ (unwrapMarker_mem hm))
                rw [h1'] at hq'
                cases hq'
                exact h2'
              · rw [h1] at hq'
                cases hq'
                exact h2
            refine .done ?_
            intro p hp
            cases hp
            exact ⟨.ptr hg', hr, ⟨_, _, rfl⟩, hgq⟩
    | _ => exact .done fun p hp => by cases hp
  | _ => exact .done fun p hp => by cases hp

theorem fnArg_safe {env : FnEnv} (he : GoodFnEnv env) {ns : List String} (hns : ∀ x ∈ ns, GoodName x) {s : FnState}
    (hs : GoodState s) {diag : QName} {m : ArgMode} (hv : ∀ q, m.virtualThis = some q → GoodQ q ∧ ¬ IsPin q) {i : FnArg}
    (hi : GoodInput i) : Safe (fun p => Onward s p.1) (convertFnArg env s ns diag m i) := by
  cases hi with
  | typed hn hg hr =>
    rename_i name ty
    rw [convertFnArg]
    split
    · refine Safe.bind (thisType_safe hv hg hr) fun r _ hp => ?_
      cases r with
      | error e => exact .done ⟨hs, .refl⟩
      | ok p =>
        obtain ⟨self, ty'⟩ := p
        obtain ⟨h1, h2, ⟨mu, e, h3⟩, -⟩ := hp _ rfl
        dsimp only at h1 h2 h3 ⊢
        subst h3
        split
        · exact namedArg_safe he hns hs ⟨marker_good h1, .path (by simpa using h2), fun _ => .inr ⟨_, _, rfl⟩⟩
        · exact namedArg_safe he hns hs ⟨h1, h2, fun _ => .inl ⟨_, _, rfl⟩⟩
    · cases hvi : validateIdentOkForCxx name with
      | panic => rw [validate_panic_iff, hn] at hvi; cases hvi
      | bad e => exact .done ⟨hs, .refl⟩
      | ok => exact namedArg_safe he hns hs ⟨hg, hr, fun h => by cases h⟩

theorem params_safe {env : FnEnv} (he : GoodFnEnv env) {ns : List String} (hns : ∀ x ∈ ns, GoodName x)
    {diag : QName} {m : ArgMode} (hv : ∀ q, m.virtualThis = some q → GoodQ q ∧ ¬ IsPin q) :
    ∀ {l : List FnArg} {s : FnState}, GoodState s → (∀ i ∈ l, GoodInput i) →
      Safe (fun p => Onward s p.1) (convertParams env ns diag m s l)
  | [], s, hs, _ => .done ⟨hs, .refl⟩
  | i :: l, s, hs, hl => by
    rw [convertParams]
    refine Safe.bind (fnArg_safe he hns hs hv (hl i (by simp))) fun ⟨s1, r⟩ _ h1 => ?_
    refine Safe.bind (params_safe he hns hv h1.1 fun x hx => hl x (List.mem_cons_of_mem _ hx)) fun ⟨s2, g, b⟩ _ h2 => ?_
    cases r with
    | ok p => exact .done (h1.trans h2)
    | error e => exact .done (h1.trans h2)

/-! ### Looking at parameters again -/

theorem namedArg_err {env : FnEnv} {s s' : FnState} {ns : List String} {m : ArgMode} {name : Ident} {ty : Ty}
    {self : Option (QName × ReceiverMutability)} {into : Bool} {e : Err}
    (h : convertNamedArg env s ns m name ty self into = .done (s', .error e)) :
    ∃ st, convertType env.conv ns env.fuel .outerType s.concretes ty = (st, .err e) ∧ s' = { s with concretes := st } := by
  rw [convertNamedArg] at h
  obtain ⟨⟨s1, r⟩, h1, h⟩ := PassRun.bind_done.1 h
  cases r with
  | error e' => cases h; exact convertBoxed_err h1
  | ok a =>
    dsimp only at h
    split at h <;> cases h

/-- The pointee of the type a parameter is given, as far as it is looked at. -/
inductive ReachesIn (p : Ty) : Ty → Prop
  | ptr {mu : Bool} : ReachesIn p (.ptr mu p)
  | lvalue {mu : Bool} : ReachesIn p (.path ["__bindgen_marker_Reference"] [.ptr mu p])
  | rvalue {mu : Bool} {args : List Ty} : ReachesIn p (.path ["__bindgen_marker_RValueReference"] (.ptr mu p :: args))

/-- Such a type is rejected when its pointee is. -/
theorem reaches_err {env : ConvEnv} {ns : List String} {n : Nat} {ctx : ConvCtx} {st st' : Concretes} {p t : Ty} {e : Err}
    (h : ReachesIn p t) (hp : convertType env ns n .withinReference st p = (st', .err e)) :
    ∀ s a, convertType env ns (n + 1) ctx st t ≠ (s, .ok a) := by
  intro s a hc
  cases h with
  | ptr =>
    cases convertType_ok hc with
    | ptr _ hr => rw [hp] at hr; cases hr
  | lvalue =>
    rw [convert_marker, hp] at hc
    cases hc
  | rvalue =>
    rw [convertType] at hc
    simp only [unwrapMarker, unwrapReference, List.cons.injEq, String.reduceEq, and_true, if_false, if_true,
      Bool.false_eq_true, List.head?_cons] at hc
    obtain ⟨s1, _, h1, hc⟩ := thenDo_ok hc
    obtain ⟨_, _, h', _⟩ := thenDo_ok hc
    have e : st = s1 := congrArg Prod.fst h1
    rw [← e, hp] at h'
    cases h'

/-- If such a type is rejected, its pointee is rejected, or it is not the name of a type. -/
theorem err_reaches {env : ConvEnv} {ns : List String} {n : Nat} {ctx : ConvCtx} {st st' : Concretes} {p t : Ty} {e : Err}
    (h : ReachesIn p t) (hc : convertType env ns n ctx st t = (st', .err e)) :
    ensurePointee p ≠ .ok () ∨ ∃ k, n = k + 1 ∧ convertType env ns k .withinReference st p = (st', .err e) := by
  cases n with
  | zero => cases hc
  | succ k =>
    by_cases hp : ensurePointee p = .ok ()
    · refine .inr ⟨k, rfl, ?_⟩
      have fin : ∀ (g : Concretes → Annotated Ty → Concretes × CRes (Annotated Ty)), (∀ s a, ∃ b, g s a = (s, .ok b)) →
          thenDo (convertType env ns k .withinReference st p) g = (st', .err e) →
          convertType env ns k .withinReference st p = (st', .err e) := by
        intro g hg h
        cases hr : convertType env ns k .withinReference st p with
        | mk s r =>
          rw [hr] at h
          cases r with
          | ok a =>
            obtain ⟨b, hb⟩ := hg s a
            change g s a = _ at h
            rw [hb] at h
            cases h
          | err e' => cases h; rfl
          | panic => cases h
          | outOfFuel => cases h
      cases h with
      | ptr =>
        rw [convertType.eq_def] at hc
        dsimp only at hc
        rw [hp, thenDo] at hc
        exact fin _ (fun _ _ => ⟨_, rfl⟩) hc
      | lvalue =>
        rw [convert_marker] at hc
        exact fin _ (fun _ _ => ⟨_, rfl⟩) hc
      | rvalue =>
        rw [convertType] at hc
        simp only [unwrapMarker, unwrapReference, List.cons.injEq, String.reduceEq, and_true, if_false, if_true,
          Bool.false_eq_true, List.head?_cons] at hc
        rw [hp, thenDo] at hc
        exact fin _ (fun _ _ => ⟨_, rfl⟩) hc
    · exact .inl hp

theorem pointee_again {env : ConvEnv} {ns : List String} {n : Nat} {ctx ctx' : ConvCtx} {st st1 st2 : Concretes}
    {p t t' : Ty} {e : Err} (ht : ReachesIn p t) (ht' : ReachesIn p t') (hp : ensurePointee p = .ok ())
    (h : convertType env ns n ctx st t = (st1, .err e)) (hg : Grows st1 st2) :
    ∀ s a, convertType env ns n ctx' st2 t' ≠ (s, .ok a) := by
  rcases err_reaches ht h with h | ⟨k, rfl, hk⟩
  · exact absurd hp h
  · have ha := convert_again env ns k .withinReference st p st2 (by rw [hk]; exact hg)
    rw [hk] at ha
    obtain ⟨h1, h2⟩ := ha (fun h => by cases h)
    exact reaches_err ht' (Prod.ext h1 h2)

theorem thisType_pointee {v : Option QName} {diag : QName} {ty ty' : Ty} {q : QName × ReceiverMutability}
    (h : thisType v diag ty = .done (.ok (q, ty'))) : ∃ mu segs args, ty' = .ptr mu (.path segs args) ∧
      (v = none → ty = ty') := by
  rw [thisType.eq_def] at h
  split at h
  · dsimp only at h
    split at h
    · cases h; exact ⟨_, _, _, rfl, fun h => by cases h⟩
    · split at h
      · cases h
      · cases h; exact ⟨_, _, _, rfl, fun _ => rfl⟩
  · cases h

/-- A parameter which was rejected is rejected again, however it is to be treated. -/
theorem fnArg_again {env : FnEnv} {s s1 s2 s3 : FnState} {ns : List String} {diag : QName} {m m' : ArgMode} {i : FnArg}
    {e : Err} (hv : m'.virtualThis = m.virtualThis) (h : convertFnArg env s ns diag m i = .done (s1, .error e))
    (hg : Grows s1.concretes s2.concretes) : ∀ p, convertFnArg env s2 ns diag m' i ≠ .done (s3, .ok p) := by
  intro p hp
  obtain ⟨name, ty, self, into, hprep, hn⟩ := convertFnArg_ok hp
  obtain ⟨st, a, conv, hc, -⟩ := convertNamedArg_ok hn
  have this : ∀ {t ty' : Ty} {q : QName × ReceiverMutability}, i = .typed "this" t →
      thisType m'.virtualThis diag t = .done (.ok (q, ty')) →
      (ty = .path ["__bindgen_marker_Reference"] [ty'] ∨ ty = ty') → False := by
    intro t ty' q hi ht hty
    obtain ⟨mu, segs, args, rfl, -⟩ := thisType_pointee ht
    rw [hi, convertFnArg, if_pos rfl, ← hv, ht] at h
    have hr : ReachesIn (.path segs args) ty := by
      rcases hty with rfl | rfl
      · exact .lvalue
      · exact .ptr
    have use : ∀ {t' : Ty} {n' : Ident} {into' : Bool}, ReachesIn (.path segs args) t' →
        convertNamedArg env s ns m n' t' (some q) into' = .done (s1, .error e) → False := by
      intro t' n' into' hr' hn'
      obtain ⟨st', hc', rfl⟩ := namedArg_err hn'
      exact pointee_again hr' hr rfl hc' hg _ _ hc
    change (if m.thisAsReference then _ else _) = _ at h
    split at h
    · exact use .lvalue h
    · exact use .ptr h
  cases hprep with
  | thisRef ht hr => exact this rfl ht (.inl rfl)
  | thisPtr ht hr => exact this rfl ht (.inr rfl)
  | other hne hval =>
    rw [convertFnArg, if_neg hne, hval] at h
    dsimp only at h
    obtain ⟨st', hc', rfl⟩ := namedArg_err h
    have ha := convert_again env.conv ns env.fuel .outerType s.concretes ty s2.concretes (by rw [hc']; exact hg)
    rw [hc', hc] at ha
    obtain ⟨-, h2⟩ := ha (fun h => by cases h)
    cases (show CRes.ok a = .err e from h2)

theorem fates_steps {env : FnEnv} {ns : List String} {diag : QName} {m : ArgMode} {s s' : FnState} {l : List FnArg}
    {ps : List (FnArg × ArgumentAnalysis)} {es : List Err} (t : ParamFates env ns diag m s l s' ps es) (he : GoodFnEnv env)
    (hns : ∀ x ∈ ns, GoodName x) (hv : ∀ q, m.virtualThis = some q → GoodQ q ∧ ¬ IsPin q) (hs : GoodState s)
    (hl : ∀ i ∈ l, GoodInput i) : Onward s s' := by
  induction t with
  | nil => exact ⟨hs, .refl⟩
  | good h t ih =>
    have h1 := (fnArg_safe he hns hs hv (hl _ (by simp))).2 _ h
    exact h1.trans (ih h1.1 fun x hx => hl x (List.mem_cons_of_mem _ hx))
  | bad h t ih =>
    have h1 := (fnArg_safe he hns hs hv (hl _ (by simp))).2 _ h
    exact h1.trans (ih h1.1 fun x hx => hl x (List.mem_cons_of_mem _ hx))

/-- The first parameter can be looked at again. -/
theorem first_again {env : FnEnv} {ns : List String} {diag : QName} {m m' : ArgMode} {s s1 s2 : FnState}
    {l : List FnArg} {ps ps' : List (FnArg × ArgumentAnalysis)} {es : List Err}
    (t : ParamFates env ns diag m s l s1 ps es) (he : GoodFnEnv env) (hns : ∀ x ∈ ns, GoodName x)
    (hv : ∀ q, m.virtualThis = some q → GoodQ q ∧ ¬ IsPin q) (hm : m'.virtualThis = m.virtualThis) (hs : GoodState s)
    (hl : ∀ i ∈ l, GoodInput i) (hne : l ≠ []) (h2 : Onward s1 s2) (hlen : ps'.length = ps.length) :
    Safe (fun r => Onward s2 r.1 ∧ r.2.1.length = ps.length) (reanalyze env s2 ns diag l m' 0 ps') := by
  have fin : ∀ (i : FnArg), i ∈ l → l[0]? = some i →
      (∀ s3 p, convertFnArg env s2 ns diag m' i = .done (s3, .ok p) → 0 < ps.length) →
      Safe (fun r => Onward s2 r.1 ∧ r.2.1.length = ps.length) (reanalyze env s2 ns diag l m' 0 ps') := by
    intro i hi h0 hgood
    rw [reanalyze, h0]
    dsimp only
    refine Safe.bind (fnArg_safe he hns h2.1 (by rw [hm]; exact hv) (hl i hi)) fun ⟨s3, r⟩ hr h3 => ?_
    cases r with
    | error e => exact .done ⟨h3, hlen⟩
    | ok p =>
      have := hgood _ _ hr
      dsimp only
      rw [if_pos (by rw [hlen]; exact this)]
      exact .done ⟨h3, by simpa using hlen⟩
  cases t with
  | nil => exact absurd rfl hne
  | good h t => exact fin _ (by simp) rfl fun _ _ _ => by simp
  | bad h t =>
    refine fin _ (by simp) rfl fun s3 p hp => ?_
    have h1 := (fnArg_safe he hns hs hv (hl _ (by simp))).2 _ h
    have h1' := fates_steps t he hns hv h1.1 fun x hx => hl x (List.mem_cons_of_mem _ hx)
    exact absurd hp (fnArg_again hm h (h1'.2.trans h2.2) p)

/-- The second parameter of a move constructor can be looked at again. -/
theorem second_again {env : FnEnv} {ns : List String} {diag : QName} {m m' : ArgMode} {s s1 s2 : FnState}
    {l : List FnArg} {ps ps' : List (FnArg × ArgumentAnalysis)} {es : List Err} {mu mu' : Bool} {p : Ty} {n : Ident}
    {args : List Ty}
    (t : ParamFates env ns diag m s (.typed "this" (.ptr mu p) ::
      .typed n (.path ["__bindgen_marker_RValueReference"] (.ptr mu' p :: args)) :: l) s1 ps es)
    (he : GoodFnEnv env) (hns : ∀ x ∈ ns, GoodName x)
    (hv : m.virtualThis = none) (hm : m'.virtualThis = none) (hs : GoodState s)
    (hl : ∀ i ∈ FnArg.typed "this" (.ptr mu p) ::
      .typed n (.path ["__bindgen_marker_RValueReference"] (.ptr mu' p :: args)) :: l, GoodInput i)
    (h2 : Onward s1 s2) (hlen : ps'.length = ps.length) :
    Safe (fun r => Onward s2 r.1 ∧ r.2.1.length = ps.length) (reanalyze env s2 ns diag (.typed "this" (.ptr mu p) ::
      .typed n (.path ["__bindgen_marker_RValueReference"] (.ptr mu' p :: args)) :: l) m' 1 ps') := by
  have hv' : ∀ q, m.virtualThis = some q → GoodQ q ∧ ¬ IsPin q := by rw [hv]; exact fun _ h => by cases h
  rw [reanalyze]
  dsimp only [List.getElem?_cons_succ, List.getElem?_cons_zero]
  refine Safe.bind (fnArg_safe he hns h2.1 (by rw [hm]; exact fun _ h => by cases h) (hl _ (by simp)))
    fun ⟨s3, r⟩ hr h3 => ?_
  cases r with
  | error e => exact .done ⟨h3, hlen⟩
  | ok x =>
    have hlt : 1 < ps.length := by
      cases t with
      | good h t =>
        cases t with
        | good h' t => simp
        | bad h' t =>
          have g1 := (fnArg_safe he hns hs hv' (hl _ (by simp))).2 _ h
          have g2 := (fnArg_safe he hns g1.1 hv' (hl _ (by simp))).2 _ h'
          have g3 := fates_steps t he hns hv' g2.1 fun x hx => hl x (by simp [hx])
          exact absurd hr (fnArg_again (hm.trans hv.symm) h' (g3.2.trans h2.2) x)
      | bad h t =>
        exfalso
        have g1 := (fnArg_safe he hns hs hv' (hl _ (by simp))).2 _ h
        have g2 := fates_steps t he hns hv' g1.1 fun x hx => hl x (List.mem_cons_of_mem _ hx)
        obtain ⟨name, ty, self, into, hprep, hn⟩ := convertFnArg_ok hr
        obtain ⟨st, a, conv, hc, -⟩ := convertNamedArg_ok hn
        cases hprep with
        | thisRef ht _ => obtain ⟨_, _, _, e, e'⟩ := thisType_pointee ht; rw [← e' hm] at e; cases e
        | thisPtr ht _ => obtain ⟨_, _, _, e, e'⟩ := thisType_pointee ht; rw [← e' hm] at e; cases e
        | other hne hval =>
          have hp : ensurePointee p = .ok () := by
            cases hfu : env.fuel with
            | zero => rw [hfu] at hc; cases hc
            | succ k =>
              rw [hfu, convertType] at hc
              simp only [unwrapMarker, unwrapReference, List.cons.injEq, String.reduceEq, and_true, if_false, if_true,
                Bool.false_eq_true, List.head?_cons] at hc
              obtain ⟨_, _, h1, _⟩ := thenDo_ok hc
              exact congrArg Prod.snd h1
          have use : ∀ {t' : Ty} {n' : Ident} {into' : Bool} {q : QName × ReceiverMutability} {s0 s4 : FnState} {e : Err},
              ReachesIn p t' → Grows s4.concretes s2.concretes →
              convertNamedArg env s0 ns m n' t' (some q) into' = .done (s4, .error e) → False := by
            intro t' n' into' q s0 s4 e hr' hg' hn'
            obtain ⟨st', hc', rfl⟩ := namedArg_err hn'
            exact pointee_again hr' .rvalue hp hc' hg' _ _ hc
          have hp' : ∃ segs a, p = .path segs a := by
            cases p with
            | path segs a => exact ⟨_, _, rfl⟩
            | _ => cases hp
          rw [convertFnArg, if_pos rfl, hv] at h
          obtain ⟨r, ht, h⟩ := PassRun.bind_done.1 h
          cases r with
          | error e' =>
            obtain ⟨segs, a', rfl⟩ := hp'
            rw [thisType.eq_def] at ht
            dsimp only at ht
            split at ht <;> cases ht
          | ok y =>
            obtain ⟨q, ty'⟩ := y
            obtain ⟨_, _, _, e, e'⟩ := thisType_pointee ht
            have e' := e' rfl
            subst e'
            dsimp only at h
            split at h
            · exact use .lvalue (g2.2.trans h2.2) h
            · exact use .ptr (g2.2.trans h2.2) h
    dsimp only
    rw [if_pos (by rw [hlen]; exact hlt)]
    exact .done ⟨h3, by simpa using hlen⟩

end Verif
