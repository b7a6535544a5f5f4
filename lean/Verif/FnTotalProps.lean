import Verif.FnPanicProps
import Verif.FnPass

/-!
# The analysis of one function does not panic
-/

set_option autoImplicit false

namespace Verif

/-- Only the counters for names differ. -/
def SameMade (s s' : FnState) : Prop := s'.concretes = s.concretes ∧ s'.extra = s.extra

theorem SameMade.onward {s s' : FnState} (h : SameMade s s') (hs : GoodState s) : Onward s s' := by
  refine ⟨⟨?_, ?_, ?_⟩, ?_⟩
  · rw [h.1]; exact hs.concretes
  · rw [h.2]; exact hs.inv
  · rw [h.2]; exact hs.extra
  · rw [h.1]; exact .refl

theorem overload_same {s : FnState} {ns : List String} {ty : Option String} {n : String} :
    SameMade s (overloadName s ns ty n).1 := ⟨rfl, rfl⟩

theorem method_same {s : FnState} {ns : List String} {ty : Ident} {pre : Option String} {n : String} :
    SameMade s (methodName s ns ty pre n).1 := by
  cases pre with
  | some p => exact ⟨rfl, rfl⟩
  | none => exact ⟨rfl, rfl⟩

theorem method_ident {s : FnState} {ns : List String} {ty : Ident} {pre : Option String} {n : String}
    (hp : ∀ p, pre = some p → isIdentText p = true) (hn : isIdentText n = true) :
    isIdentText (methodName s ns ty pre n).2 = true := by
  cases pre with
  | some p => exact hp p rfl
  | none => exact overload_ident hn

theorem new_ident {ideal nested suffix : String} (h : isIdentText ideal = true)
    (hs : stripPrefix ideal nested = some suffix) : isIdentText ("new" ++ suffix) = true := by
  rw [stripPrefix_some] at hs
  refine ident_append (by decide) ?_
  have := ident_chars h
  rw [hs, String.toList_append, List.all_append, Bool.and_eq_true] at this
  exact this.2

theorem ctorSuffix_strip {ideal nested suffix : String} (h : constructorWithSuffix ideal nested = some suffix) :
    stripPrefix ideal nested = some suffix := by
  rw [constructorWithSuffix] at h
  split at h
  · rename_i x hx
    split at h
    · cases h; exact hx
    · cases h
  · cases h

/-- What the decision about the kind of a function guarantees for what follows. -/
structure KindFacts (env : FnEnv) (f : FuncToConvert) (ideal : String) (selfTy : Option QName) (s : FnState)
    (r : FnState × KindAndName) : Prop where
  made : SameMade s r.1
  ident : isIdentText r.2.rustName = true
  ty : ∀ t, r.2.kind.bridgeTy = some t → isIdentText t = true
  move : ∀ q d, r.2.kind = .traitMethod .moveConstructor q d →
    f.addToTrait = none ∧ f.specialMember = some .moveConstructor ∧ selfTy = some q
  special : ∀ q d, r.2.kind = .traitMethod .copyConstructor q d ∨ r.2.kind = .traitMethod .destructor q d →
    f.addToTrait = none ∧ (f.specialMember = some .copyConstructor ∨ f.specialMember = some .destructor) ∧ selfTy = some q
  ctor : ∀ b q, r.2.kind = .method (.constructor b) q → f.addToTrait = none ∧ selfTy = some q ∧
    (f.specialMember = some .copyConstructor ∨
      constructorWithSuffix ideal ((AMap.get? env.nested q).getD q.name) ≠ none)

theorem trait_safe {env : FnEnv} {s : FnState} {ns : List String} {f : FuncToConvert} {ideal : String}
    {selfTy : Option QName} {t : TraitSynthesis} (hideal : isIdentText ideal = true)
    (hself : ∀ q, selfTy = some q → isIdentText q.name = true)
    (hcast : ∀ q m, t = .cast q m → selfTy ≠ none)
    (halloc : ∀ q, t = .allocUninitialized q ∨ t = .freeUninitialized q → isIdentText q.name = true) :
    Safe (KindFacts env f ideal selfTy s) (traitKind s ns ideal selfTy t) := by
  cases t with
  | cast q m =>
    cases selfTy with
    | none => exact absurd rfl (hcast q m rfl)
    | some x =>
      refine .done ⟨overload_same, overload_ident hideal, ?_, ?_, ?_, ?_⟩
      · intro t ht; cases ht; exact hself x rfl
      · intro _ _ h; cases h
      · intro _ _ h; rcases h with h | h <;> cases h
      · intro _ _ h; cases h
  | allocUninitialized q =>
    refine .done ⟨overload_same, overload_ident hideal, ?_, ?_, ?_, ?_⟩
    · intro t ht; cases ht; exact halloc q (.inl rfl)
    · intro _ _ h; cases h
    · intro _ _ h; rcases h with h | h <;> cases h
    · intro _ _ h; cases h
  | freeUninitialized q =>
    refine .done ⟨overload_same, overload_ident hideal, ?_, ?_, ?_, ?_⟩
    · intro t ht; cases ht; exact halloc q (.inr rfl)
    · intro _ _ h; cases h
    · intro _ _ h; rcases h with h | h <;> cases h
    · intro _ _ h; cases h

theorem copyMove_facts {env : FnEnv} {s : FnState} {ns : List String} {f : FuncToConvert} {ideal : String} {q : QName}
    {nested : String} {pre : Option String} {isMove second : Bool} (hideal : isIdentText ideal = true)
    (hpre : ∀ p, pre = some p → isIdentText p = true) (hq : isIdentText q.name = true) (ht : f.addToTrait = none)
    (hm : isMove = true → f.specialMember = some .moveConstructor)
    (hc : isMove = false → f.specialMember = some .copyConstructor) :
    KindFacts env f ideal (some q) s (copyMoveKind env s ns q nested ideal pre isMove second) := by
  have hid : isIdentText (methodName s ns q.name pre (match stripPrefix ideal nested with
      | some suffix => "new" ++ suffix
      | none => ideal)).2 = true := by
    refine method_ident hpre ?_
    split
    · rename_i suffix hs
      exact new_ident hideal hs
    · exact hideal
  unfold copyMoveKind
  dsimp only
  cases isMove with
  | true =>
    refine ⟨method_same, hid, ?_, ?_, ?_, ?_⟩
    · intro t ht; cases ht; exact hq
    · intro _ _ h; cases h; exact ⟨ht, hm rfl, rfl⟩
    · intro _ _ h; rcases h with h | h <;> cases h
    · intro _ _ h; cases h
  | false =>
    cases second with
    | true =>
      refine ⟨method_same, hid, ?_, ?_, ?_, ?_⟩
      · intro t ht; cases ht; exact hq
      · intro _ _ h; cases h
      · intro _ _ h
        rcases h with h | h <;> cases h
        exact ⟨ht, .inl (hc rfl), rfl⟩
      · intro _ _ h; cases h
    | false =>
      refine ⟨method_same, hid, ?_, ?_, ?_, ?_⟩
      · intro t ht; cases ht; exact hq
      · intro _ _ h; cases h
      · intro _ _ h; rcases h with h | h <;> cases h
      · intro _ _ h; cases h; exact ⟨ht, rfl, .inl (hc rfl)⟩

theorem plain_safe {env : FnEnv} {s : FnState} {ns : List String} {f : FuncToConvert} {ideal : String} {q : QName}
    {pre : Option String} {isStatic : Bool} {recv : Option ReceiverMutability} (hideal : isIdentText ideal = true)
    (hpre : ∀ p, pre = some p → isIdentText p = true) (hq : isIdentText q.name = true) (ht : f.addToTrait = none)
    (hrecv : isStatic = true ∨ recv ≠ none) :
    Safe (KindFacts env f ideal (some q) s)
      (plainMethodKind env s ns f q ((AMap.get? env.nested q).getD q.name) ideal pre isStatic recv) := by
  unfold plainMethodKind
  split
  · rename_i suffix hs
    refine .done ⟨method_same, method_ident hpre (new_ident hideal (ctorSuffix_strip hs)), ?_, ?_, ?_, ?_⟩
    · intro t ht; cases ht; exact hq
    · intro _ _ h; cases h
    · intro _ _ h; rcases h with h | h <;> cases h
    · intro _ _ h
      cases h
      exact ⟨ht, rfl, .inr (by rw [hs]; exact fun h => by cases h)⟩
  · split
    · refine .done ⟨method_same, method_ident hpre hideal, ?_, ?_, ?_, ?_⟩
      · intro t ht; cases ht; exact hq
      · intro _ _ h; cases h
      · intro _ _ h; rcases h with h | h <;> cases h
      · intro _ _ h; cases h
    · rename_i hst
      cases recv with
      | none => exact absurd rfl (hrecv.resolve_left hst)
      | some r =>
        refine .done ⟨method_same, method_ident hpre hideal, ?_, ?_, ?_, ?_⟩
        · intro t ht; cases ht; exact hq
        · intro _ _ h; cases h
        · intro _ _ h; rcases h with h | h <;> cases h
        · intro _ _ h
          dsimp only at h
          split at h <;> cases h

theorem kind_safe {env : FnEnv} {s : FnState} {ns : List String} {f : FuncToConvert} {ideal : String}
    {selfTy : Option QName} {pre : Option String} {isStatic second : Bool} {recv : Option ReceiverMutability}
    (hideal : isIdentText ideal = true) (hpre : ∀ p, pre = some p → isIdentText p = true)
    (hself : ∀ q, selfTy = some q → isIdentText q.name = true)
    (hcast : ∀ q m, f.addToTrait = some (.cast q m) → selfTy ≠ none)
    (halloc : ∀ q, f.addToTrait = some (.allocUninitialized q) ∨ f.addToTrait = some (.freeUninitialized q) →
      isIdentText q.name = true)
    (hrecv : selfTy ≠ none → isStatic = true ∨ recv ≠ none) :
    Safe (KindFacts env f ideal selfTy s) (decideKind env s ns f ideal pre selfTy isStatic recv second) := by
  unfold decideKind
  cases ht : f.addToTrait with
  | some t =>
    exact trait_safe hideal hself (fun q m e => hcast q m (by rw [ht, e])) fun q h => halloc q (by
      rcases h with h | h
      · exact .inl (by rw [ht, h])
      · exact .inr (by rw [ht, h]))
  | none =>
    cases selfTy with
    | none =>
      refine .done ⟨overload_same, overload_ident hideal, ?_, ?_, ?_, ?_⟩
      · intro t ht; cases ht
      · intro _ _ h; cases h
      · intro _ _ h; rcases h with h | h <;> cases h
      · intro _ _ h; cases h
    | some q =>
      dsimp only
      have hq := hself q rfl
      split
      · rename_i hs
        exact .done (copyMove_facts hideal hpre hq ht (fun _ => hs) (fun h => by cases h))
      · rename_i hs
        exact .done (copyMove_facts hideal hpre hq ht (fun h => by cases h) (fun _ => hs))
      · rename_i hs
        refine .done ⟨method_same, method_ident hpre hideal, ?_, ?_, ?_, ?_⟩
        · intro t ht; cases ht; exact hq
        · intro _ _ h; cases h
        · intro _ _ h
          rcases h with h | h <;> cases h
          exact ⟨ht, .inr hs, rfl⟩
        · intro _ _ h; cases h
      · exact plain_safe hideal hpre hq ht (hrecv (fun h => by cases h))

/-! ### The result -/

theorem plainReturn_some {env : FnEnv} {a : Annotated Ty} (h : Describes a.kind a.ty) : plainReturn env a ≠ none := by
  unfold plainReturn
  intro e
  rw [Option.map_eq_none_iff] at e
  split at e
  · rename_i hc
    rcases hc.1 with hk | hk
    · rw [hk] at h
      obtain ⟨x, hx⟩ := h
      rw [hx] at e
      exact absurd e (by rw [TypeConversionPolicy.returnReferenceIntoWrapper]; exact fun h => by cases h)
    · rw [hk] at h
      obtain ⟨mu, lt, x, hx⟩ := h
      rw [hx] at e
      cases e
  · cases e

theorem placement_safe {env : FnEnv} (he : GoodFnEnv env) {ns : List String} (hns : ∀ x ∈ ns, GoodName x) {s : FnState}
    (hs : GoodState s) {diag : QName} {ty : Ty} (ht : GoodTy ty) :
    Safe (fun p => Onward s p.1) (convertFnArg env s ns diag
      { thisAsReference := false, force := some .fromPlacementParamToNewReturn }
      (.typed "placement_return_type" (.ptr true ty))) := by
  rw [convertFnArg, if_neg (by decide), show validateIdentOkForCxx "placement_return_type" = .ok by decide]
  dsimp only
  rw [convertNamedArg]
  refine Safe.bind (boxed_state he hns hs (.ptr ht)) fun ⟨s', r⟩ hr hst => ?_
  cases r with
  | error e => exact .done hst
  | ok a =>
    obtain ⟨st, hc, -⟩ := convertBoxed_ok hr
    have hk : a.kind = .pointer := by
      cases hfu : env.fuel with
      | zero => rw [hfu] at hc; cases hc
      | succ k =>
        rw [hfu] at hc
        cases convertType_ok hc with
        | ptr _ _ => rfl
    dsimp only
    rw [argConversion, hk]
    dsimp only
    rw [if_pos ⟨rfl, rfl⟩]
    exact .done hst

theorem return_safe {env : FnEnv} (he : GoodFnEnv env) {ns : List String} (hns : ∀ x ∈ ns, GoodName x) {s : FnState}
    (hs : GoodState s) {diag : QName} {soph : Sophistication} {ty : Option Ty} (ht : ∀ t, ty = some t → GoodTy t) :
    Safe (fun p => Onward s p.1) (convertReturn env s ns diag soph ty) := by
  cases ty with
  | none => exact .done ⟨hs, .refl⟩
  | some ty =>
    have ht := ht ty rfl
    rw [convertReturn]
    refine Safe.bind (boxed_state he hns hs ht) fun ⟨s', r⟩ hr hst => ?_
    cases r with
    | error e => exact .done hst
    | ok a =>
      obtain ⟨st, hc, -⟩ := convertBoxed_ok hr
      have hd := kind_describes _ _ _ _ _ _ _ _ hc
      have hf := convert_fine he.conv hns env.fuel .outerType s.concretes ty hs.concretes ht
      rw [hc] at hf
      have hga := (hf.2.2 a rfl).1
      have plain : Safe (fun p : FnState × Except Err ReturnAnalysis => Onward s p.1) (match plainReturn env a with
          | none => .panic
          | some r => .done (s', .ok r)) := by
        cases hp : plainReturn env a with
        | none => exact absurd hp (plainReturn_some hd)
        | some r => exact .done hst
      dsimp only
      split
      · rename_i segs args hty
        obtain ⟨q, hq, -⟩ := goodTy_path (hty ▸ hga)
        rw [hq]
        dsimp only
        split
        · exact plain
        · rw [valueReturn]
          split
          · refine Safe.bind (placement_safe he hns hst.1 hga) fun ⟨s2, r⟩ _ h2 => ?_
            cases r with
            | error e => exact .done (Onward.trans hst h2)
            | ok p => exact .done (Onward.trans hst h2)
          · exact .done hst
      · exact plain

/-! ### The function -/

/-- A function as bindgen describes it. -/
structure GoodFn (nested : AMap QName String) (name : ApiName) (f : FuncToConvert) : Prop where
  ns : ∀ x ∈ name.name.ns, GoodName x
  ident : isIdentText f.ident = true
  cpp : ∀ c, name.cppName = some c → isIdentText c = true
  inputs : ∀ i ∈ f.inputs, GoodInput i
  output : ∀ t, f.output = some t → GoodTy t
  self : ∀ q, f.selfTy = some q → isIdentText q.name = true
  synth : ∀ q, f.synthesizedThisType = some q → GoodQ q ∧ ¬ IsPin q
  cast : ∀ q m, f.addToTrait = some (.cast q m) → f.selfTy ≠ none
  alloc : ∀ q, f.addToTrait = some (.allocUninitialized q) ∨ f.addToTrait = some (.freeUninitialized q) →
    isIdentText q.name = true
  /-- What has no parameter `this` is not a special member, and is not named like the class with a number. -/
  static : ∀ q, f.selfTy = some q → (∀ t, .typed "this" t ∉ f.inputs) →
    f.specialMember ≠ some .copyConstructor ∧ f.specialMember ≠ some .destructor ∧
    ∀ ideal, idealRustName f.ident name.cppName = .done ideal →
      constructorWithSuffix ideal ((AMap.get? nested q).getD q.name) = none
  /-- A move constructor takes an rvalue reference to what `this` points to. -/
  move : f.specialMember = some .moveConstructor → f.synthesizedThisType = none ∧ ∃ mu mu' p n args l,
    f.inputs = .typed "this" (.ptr mu p) ::
      .typed n (.path ["__bindgen_marker_RValueReference"] (.ptr mu' p :: args)) :: l

/-- The class of a function is that of a parameter called `this`. -/
theorem fates_self {env : FnEnv} {ns : List String} {diag : QName} {m : ArgMode} {s s' : FnState} {l : List FnArg}
    {ps : List (FnArg × ArgumentAnalysis)} {es : List Err} (t : ParamFates env ns diag m s l s' ps es)
    (hv : ∀ q, m.virtualThis = some q → GoodQ q ∧ ¬ IsPin q) (hl : ∀ i ∈ l, GoodInput i) :
    ∀ p ∈ ps, ∀ q, p.2.selfType = some q → GoodQ q.1 ∧ ∃ t, .typed "this" t ∈ l := by
  induction t with
  | nil => intro p hp; cases hp
  | good h t ih =>
    intro p hp q hq
    rcases List.mem_cons.1 hp with rfl | hp
    · obtain ⟨name, ty, self, into, hprep, hn⟩ := convertFnArg_ok h
      obtain ⟨st, a, conv, hc, -, -, rfl⟩ := convertNamedArg_ok hn
      have hi := hl _ (List.mem_cons_self ..)
      have hq : self = some q := hq
      cases hprep with
      | thisRef ht _ =>
        cases hi with
        | typed _ hg hr =>
          cases hq
          exact ⟨((thisType_safe hv hg hr).2 _ ht _ rfl).2.2.2, _, List.mem_cons_self ..⟩
      | thisPtr ht _ =>
        cases hi with
        | typed _ hg hr =>
          cases hq
          exact ⟨((thisType_safe hv hg hr).2 _ ht _ rfl).2.2.2, _, List.mem_cons_self ..⟩
      | other _ _ => cases hq
    · obtain ⟨h1, t, h2⟩ := ih (fun i hi => hl i (List.mem_cons_of_mem _ hi)) p hp q hq
      exact ⟨h1, t, List.mem_cons_of_mem _ h2⟩
  | bad h t ih =>
    intro p hp q hq
    obtain ⟨h1, t, h2⟩ := ih (fun i hi => hl i (List.mem_cons_of_mem _ hi)) p hp q hq
    exact ⟨h1, t, List.mem_cons_of_mem _ h2⟩

/-- The class whose member a function is: the one recorded for it, the one which stands in for that of `this`, or that to
which `this` points. -/
inductive ClassOf (f : FuncToConvert) : QName → Prop
  | self {q : QName} (h : f.selfTy = some q) : ClassOf f q
  | stand {q : QName} (h : f.synthesizedThisType = some q) : ClassOf f q
  | this {mu : Bool} {segs : List String} {args : List Ty} {q : QName} (h : .typed "this" (.ptr mu (.path segs args)) ∈ f.inputs)
      (hq : QName.ofTypePath segs = some q) : ClassOf f q
  | opaqueThis {mu : Bool} {segs inner : List String} {args args' : List Ty} {q : QName}
      (h : .typed "this" (.ptr mu (.path segs args)) ∈ f.inputs)
      (hu : unwrapMarker "__bindgen_marker_Opaque" segs args = some (.path inner args'))
      (hq : QName.ofTypePath inner = some q) : ClassOf f q

theorem thisType_class {f : FuncToConvert} {diag : QName} {ty ty' : Ty} {q : QName × ReceiverMutability}
    (h : thisType f.synthesizedThisType diag ty = .done (.ok (q, ty'))) (hi : .typed "this" ty ∈ f.inputs) :
    ClassOf f q.1 := by
  unfold thisType at h
  split at h
  · dsimp only at h
    split at h
    · rename_i v hv
      cases h
      exact .stand hv
    · split at h
      · cases h
      · rename_i hq
        cases h
        split at hq
        · rename_i hu
          exact .opaqueThis hi hu hq
        · exact .this hi hq
  · cases h

theorem fates_class {env : FnEnv} {ns : List String} {diag : QName} {m : ArgMode} {s s' : FnState} {l : List FnArg}
    {ps : List (FnArg × ArgumentAnalysis)} {es : List Err} {f : FuncToConvert} (t : ParamFates env ns diag m s l s' ps es)
    (hv : m.virtualThis = f.synthesizedThisType) (hl : ∀ i ∈ l, i ∈ f.inputs) :
    ∀ p ∈ ps, ∀ q, p.2.selfType = some q → ClassOf f q.1 := by
  induction t with
  | nil => intro p hp; cases hp
  | good h t ih =>
    intro p hp q hq
    rcases List.mem_cons.1 hp with rfl | hp
    · obtain ⟨name, ty, self, into, hprep, hn⟩ := convertFnArg_ok h
      obtain ⟨st, a, conv, hc, -, -, rfl⟩ := convertNamedArg_ok hn
      have hi := hl _ (List.mem_cons_self ..)
      have hq : self = some q := hq
      cases hprep with
      | thisRef ht _ =>
        cases hq
        rw [hv] at ht
        exact thisType_class ht hi
      | thisPtr ht _ =>
        cases hq
        rw [hv] at ht
        exact thisType_class ht hi
      | other _ _ => cases hq
    · exact ih (fun i hi => hl i (List.mem_cons_of_mem _ hi)) p hp q hq
  | bad h t ih => exact ih (fun i hi => hl i (List.mem_cons_of_mem _ hi))

/-- What a function is taken to be a member of is its class. -/
theorem FnSteps.self_class {env : FnEnv} {s s' : FnState} {name n : ApiName} {f : FuncToConvert} {soph : Sophistication}
    {pre : Option String} {a : FnAnalysis} (t : FnSteps env s name f soph pre s' a n) {q : QName}
    (h : (match selfOfParams t.ps with
      | some q => some q.1
      | none => f.selfTy) = some q) : ClassOf f q := by
  split at h
  · rename_i r hr
    cases h
    rw [selfOfParams] at hr
    obtain ⟨p, hp, hq⟩ := List.mem_filterMap.1 (List.mem_of_mem_head? hr)
    exact fates_class t.hparams rfl (fun _ hi => hi) p hp r hq
  · exact .self h

theorem mkIdent_safe {n : String} (h : isIdentText n = true) : Safe (fun m => m = n) (mkIdent n) := by
  rw [mkIdent, if_pos h]
  exact .done rfl

theorem signature_some {env : FnEnv} (he : GoodFnEnv env) {f : FuncToConvert} {kind : FnKind} {bads : List Err} :
    signatureProblem env f kind bads ≠ none := by
  have hk : kindProblem env kind ≠ none := by
    rw [kindProblem.eq_def]
    split
    · exact fun h => by cases h
    · exact fun h => by cases h
    · split
      · exact fun h => by cases h
      · intro h
        exact he.allow _ (Option.map_eq_none_iff.1 h)
  unfold signatureProblem
  intro h
  rw [Option.map_eq_none_iff, chainProblem.eq_def] at h
  split at h
  · cases h
  · split at h
    · cases h
    · split at h
      · cases h
      · split at h
        · cases h
        · exact hk h

theorem nameBad_safe {n : String} (h : isIdentText n = true) : Safe (fun _ => True) (nameBadForRust n) := by
  refine ⟨?_, fun _ _ => trivial⟩
  rw [nameBadForRust, validateStrOkForRust, h]
  simp only [Bool.not_true, Bool.false_eq_true, if_false]
  split <;> rename_i h <;> split at h <;> simp_all

theorem reanalyze_safe {env : FnEnv} (he : GoodFnEnv env) {name : ApiName} {f : FuncToConvert} (hf : GoodFn env.nested name f)
    {diag : QName} {soph : Sophistication} {s s1 s2 : FnState} {ps : List (FnArg × ArgumentAnalysis)} {bads : List Err}
    (t : ParamFates env name.name.ns diag { virtualThis := f.synthesizedThisType, soph := soph } s f.inputs s1 ps bads)
    (hs : GoodState s) (h2 : Onward s1 s2) {kind : FnKind}
    (hmove : ∀ q d, kind = .traitMethod .moveConstructor q d → f.specialMember = some .moveConstructor)
    (hother : (∃ b q, kind = .method (.constructor b) q) ∨ (∃ q d, kind = .traitMethod .copyConstructor q d) ∨
      (∃ q d, kind = .traitMethod .destructor q d) → f.inputs ≠ []) :
    Safe (fun r => Onward s2 r.1) (reanalyzeParams env s2 name.name.ns diag f soph kind ps) := by
  have first : ∀ (m' : ArgMode) (ps' : List (FnArg × ArgumentAnalysis)) (s3 : FnState), m'.virtualThis = f.synthesizedThisType →
      f.inputs ≠ [] → Onward s1 s3 → ps'.length = ps.length →
      Safe (fun r => Onward s3 r.1 ∧ r.2.1.length = ps.length) (reanalyze env s3 name.name.ns diag f.inputs m' 0 ps') :=
    fun m' ps' s3 hm hne h3 hl => first_again t he hf.ns hf.synth hm hs hf.inputs hne h3 hl
  unfold reanalyzeParams
  split
  · have h := first { virtualThis := f.synthesizedThisType, thisAsReference := false, soph := soph, intoSelf := true } ps s2 rfl
      (hother (.inl ⟨_, _, rfl⟩)) h2 rfl
    exact ⟨h.1, fun a ha => (h.2 a ha).1⟩
  · have h := first
      { virtualThis := f.synthesizedThisType, thisAsReference := false, soph := soph, force := some .fromTypeToPtr }
      ps s2 rfl (hother (.inr (.inr ⟨_, _, rfl⟩))) h2 rfl
    exact ⟨h.1, fun a ha => (h.2 a ha).1⟩
  · refine Safe.bind (first _ ps s2 rfl (hother (.inr (.inl ⟨_, _, rfl⟩))) h2 rfl) fun ⟨s3, ps', e⟩ _ h3 => ?_
    exact .done h3.1
  · obtain ⟨hv, mu, mu', p, n, args, l, hi⟩ := hf.move (hmove _ _ rfl)
    refine Safe.bind (first _ ps s2 rfl (by rw [hi]; simp) h2 rfl) fun ⟨s3, ps', e⟩ _ h3 => ?_
    have hin := hf.inputs
    rw [hi] at t hin ⊢
    refine Safe.bind (second_again t he hf.ns hv hv hs hin (h2.trans h3.1) h3.2) fun ⟨s4, ps'', e'⟩ _ h4 => ?_
    exact .done (h3.1.trans h4.1)
  · exact .done ⟨h2.1, .refl⟩

/-- What is known of an analysed function. -/
structure AnalysisFacts (s : FnState) (name : ApiName) (f : FuncToConvert) (r : FnState × FnAnalysis × ApiName) : Prop where
  steps : Onward s r.1
  ns : r.2.2.name.ns = name.name.ns
  cpp : r.2.2.cppName = name.cppName
  ident : isIdentText r.2.2.name.name = true
  rust : isIdentText r.2.1.rustName = true
  bridge : r.2.1.cxxbridgeName = r.2.2.name.name
  ctor : r.2.1.kind.constructorOf ≠ none → ∃ t, .typed "this" t ∈ f.inputs

theorem class_cases {o : Option (QName × ReceiverMutability)} {d : Option QName} {q : QName}
    (h : (match o with
      | some q => some q.1
      | none => d) = some q) : (∃ x, o = some x ∧ x.1 = q) ∨ (o = none ∧ d = some q) := by
  cases o with
  | some x => cases h; exact .inl ⟨x, rfl, rfl⟩
  | none => exact .inr ⟨rfl, h⟩

theorem class_none {o : Option (QName × ReceiverMutability)} {d : Option QName}
    (h : (match o with
      | some q => some q.1
      | none => d) = none) : o = none ∧ d = none := by
  cases o with
  | some x => cases h
  | none => exact ⟨rfl, h⟩

/-- **C71 (functions)**: whatever was analysed before, analysing a function which bindgen can describe does not panic. -/
theorem analyze_safe {env : FnEnv} (he : GoodFnEnv env) {name : ApiName} {f : FuncToConvert} (hf : GoodFn env.nested name f)
    {s : FnState} (hs : GoodState s) {soph : Sophistication} {pre : Option String}
    (hpre : ∀ p, pre = some p → isIdentText p = true) :
    Safe (AnalysisFacts s name f) (analyzeForeignFn env s name f soph pre) := by
  unfold analyzeForeignFn
  dsimp only
  refine Safe.bind (mkIdent_safe (by
    cases hc : name.cppName with
    | none => exact hf.ident
    | some c => exact hf.cpp c hc)) fun d _ _ => ?_
  refine Safe.bind (params_safe he hf.ns hf.synth hs hf.inputs) fun ⟨s1, ps, bads⟩ hps h1 => ?_
  have t := convertParams_done hps
  refine Safe.bind (ideal_safe hf.ident hf.cpp) fun ideal hideal hid => ?_
  dsimp only at h1 ⊢
  -- the class of the function
  have hself : ∀ q, selfOfParams ps = some q → GoodQ q.1 ∧ ∃ t, .typed "this" t ∈ f.inputs := by
    intro q hq
    have hm := List.mem_of_mem_head? hq
    obtain ⟨p, hp, he⟩ := List.mem_filterMap.1 hm
    exact fates_self t hf.synth hf.inputs p hp q he
  refine Safe.bind (kind_safe hid hpre ?_ ?_ hf.alloc ?_) fun ⟨s2, kn⟩ _ hk => ?_
  · intro q hq
    rcases class_cases hq with ⟨x, hx, rfl⟩ | ⟨-, hq⟩
    · exact ((hself x hx).1 _ (by simp [QName.segs])).1
    · exact hf.self q hq
  · intro q m hc e
    exact hf.cast q m hc (class_none e).2
  · intro hne
    cases hsp : selfOfParams ps with
    | some x => exact .inr (fun h => by cases h)
    | none =>
      refine .inl ?_
      rw [hsp] at hne
      simpa [Option.isSome_iff_ne_none] using hne
  have hthis : ∀ q, (match selfOfParams ps with
      | some q => some q.1
      | none => f.selfTy) = some q → (∃ t, .typed "this" t ∈ f.inputs) ∨ f.selfTy = some q := by
    intro q hq
    rcases class_cases hq with ⟨x, hx, rfl⟩ | ⟨-, hq⟩
    · exact .inl (hself x hx).2
    · exact .inr hq
  have h2 : Onward s1 s2 := hk.made.onward h1.1
  refine Safe.bind (mkIdent_safe hk.ident) fun _ _ _ => ?_
  have hinputs : (∃ b q, kn.kind = .method (.constructor b) q) ∨ (∃ q d, kn.kind = .traitMethod .copyConstructor q d) ∨
      (∃ q d, kn.kind = .traitMethod .destructor q d) → ∃ t, .typed "this" t ∈ f.inputs := by
    intro h
    by_contra hno
    have hno' : ∀ t, FnArg.typed "this" t ∉ f.inputs := fun t ht => hno ⟨t, ht⟩
    rcases h with ⟨b, q, h⟩ | h | h
    · obtain ⟨-, h1, h3⟩ := hk.ctor b q h
      obtain ⟨g1, g2, g3⟩ := hf.static q ((hthis q h1).resolve_left hno) hno'
      rcases h3 with h3 | h3
      · exact g1 h3
      · exact h3 (g3 ideal hideal)
    · obtain ⟨q, dd, h⟩ := h
      obtain ⟨-, h3, h1⟩ := hk.special q dd (.inl h)
      obtain ⟨g1, g2, g3⟩ := hf.static q ((hthis q h1).resolve_left hno) hno'
      exact h3.elim g1 g2
    · obtain ⟨q, dd, h⟩ := h
      obtain ⟨-, h3, h1⟩ := hk.special q dd (.inr h)
      obtain ⟨g1, g2, g3⟩ := hf.static q ((hthis q h1).resolve_left hno) hno'
      exact h3.elim g1 g2
  refine Safe.bind (reanalyze_safe he hf t hs h2 (fun q d h => (hk.move q d h).2.1) (fun h => ?_))
    fun ⟨s3, ps', e⟩ _ h3 => ?_
  · obtain ⟨t, ht⟩ := hinputs h
    exact List.ne_nil_of_mem ht
  dsimp only at h3 ⊢
  cases hsig : signatureProblem env f kn.kind bads with
  | none => exact absurd hsig (signature_some he)
  | some e' =>
    dsimp only
    have hbid : isIdentText (s3.bridge.getName { ty := kn.kind.bridgeTy, found := kn.rustName, ns := name.name.ns }).2 =
        true := bridge_ident hk.ident hk.ty fun x hx => (hf.ns x hx).1
    refine Safe.bind (mkIdent_safe hbid) fun _ _ _ => ?_
    have hs4 : GoodState { s3 with bridge := (s3.bridge.getName
        { ty := kn.kind.bridgeTy, found := kn.rustName, ns := name.name.ns }).1 } := ⟨h3.1.concretes, h3.1.inv, h3.1.extra⟩
    refine Safe.bind (return_safe he hf.ns hs4 hf.output) fun ⟨s5, r⟩ _ h5 => ?_
    refine Safe.bind (P := fun _ => True) ?_ fun bad _ _ => ?_
    · cases hc : name.cppName with
      | none => exact .done trivial
      | some c => exact nameBad_safe (hf.cpp c hc)
    · have hall : Onward s s5 := ((h1.trans h2).trans h3).trans ⟨h5.1, h5.2⟩
      dsimp only
      have fin : ∀ (ret : ReturnAnalysis) (ign : Option Err), Safe (AnalysisFacts s name f) (match finishAnalysis env name f
          kn ps' (paramDepsOf ps) ret (s3.bridge.getName
            { ty := kn.kind.bridgeTy, found := kn.rustName, ns := name.name.ns }).2 ign bad with
          | none => .panic
          | some r => .done (s5, r)) := by
        intro ret ign
        generalize hb : (s3.bridge.getName { ty := kn.kind.bridgeTy, found := kn.rustName, ns := name.name.ns }).2 = bn at hbid ⊢
        have hfinal : ∀ w : Bool, isIdentText (if w then wrapperName env bn else bn) = true := by
          intro w
          cases w
          · exact hbid
          · exact wrapper_ident hbid
        unfold finishAnalysis
        dsimp only
        have hne : validateIdentOkForCxx (if wrapperNeeded env f kn.kind bn kn.rustName
            ((ps' ++ ret.placement.toList).map (·.2)) ret.conversion bad then wrapperName env bn else bn) ≠ .panic := by
          rw [Ne, validate_panic_iff, hfinal]
          simp
        have hctor : kn.kind.constructorOf ≠ none → ∃ t, FnArg.typed "this" t ∈ f.inputs := by
          intro h
          refine hinputs (.inl ?_)
          rw [FnKind.constructorOf.eq_def] at h
          split at h
          · exact ⟨_, _, by assumption⟩
          · exact absurd rfl h
        split
        · rename_i h
          split at h
          · rename_i hp; exact absurd hp hne
          · cases h
          · cases h
        · rename_i r' h
          split at h
          · rename_i hp; exact absurd hp hne
          · cases h
            exact .done ⟨hall, rfl, rfl, hfinal _, hk.ident, rfl, hctor⟩
          · cases h
            exact .done ⟨hall, rfl, rfl, hfinal _, hk.ident, rfl, hctor⟩
      exact fin _ _

end Verif
