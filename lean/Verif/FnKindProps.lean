import Verif.FnRefProps

/-!
# C64: functions are bound as what they are in C++

Free functions, static and ordinary methods, constructors, destructors and the functions made up for traits.
-/

set_option autoImplicit false

namespace Verif

/-! ### What a function is, by its declaration -/

/-- The type of the first parameter called `this`. -/
def thisOf : List FnArg → Option Ty
  | [] => none
  | .typed n t :: l => if n = "this" then some t else thisOf l
  | .receiver _ :: l => thisOf l

/-- The class named by the type `this` points to. -/
def PointsAt (segs : List String) (args : List Ty) (q : QName) : Prop :=
  (∀ t, segs = ["__bindgen_marker_Opaque"] → args.head? ≠ some t) ∧ QName.ofTypePath segs = some q ∨
  (∃ s a, segs = ["__bindgen_marker_Opaque"] ∧ args.head? = some (.path s a) ∧ QName.ofTypePath s = some q) ∨
  (∃ t, segs = ["__bindgen_marker_Opaque"] ∧ args.head? = some t ∧ (∀ s a, t ≠ .path s a) ∧
    QName.ofTypePath segs = some q)

/-- The function is a member of a class; the second is whether its object can be changed, if it has one. -/
inductive MemberOf (f : FuncToConvert) : QName → Option ReceiverMutability → Prop
  | made {mu : Bool} {segs : List String} {args : List Ty} {q : QName}
      (h : thisOf f.inputs = some (.ptr mu (.path segs args))) (hq : f.synthesizedThisType = some q) :
      MemberOf f q (some (if mu then .mutable else .const))
  | object {mu : Bool} {segs : List String} {args : List Ty} {q : QName}
      (h : thisOf f.inputs = some (.ptr mu (.path segs args))) (hs : f.synthesizedThisType = none)
      (hq : PointsAt segs args q) : MemberOf f q (some (if mu then .mutable else .const))
  | static {q : QName} (h : thisOf f.inputs = none) (hs : f.selfTy = some q) : MemberOf f q none

/-- The function is not a member of a class. -/
def FreeFunction (f : FuncToConvert) : Prop := thisOf f.inputs = none ∧ f.selfTy = none

/-- The name a function has before it is told apart from others. -/
inductive IdealName (ident : Ident) : Option String → String → Prop
  | own : IdealName ident none ident
  | under {c : String} (h : ident.toList.getLast? = some '_') : IdealName ident (some c) ident
  | cpp {c : String} (h : ident.toList.getLast? ≠ some '_') (hok : validateStrOkForRust c = .ok) :
      IdealName ident (some c) c
  | escaped {c : String} {e : InvalidIdentError} (h : ident.toList.getLast? ≠ some '_')
      (hb : validateStrOkForRust c = .bad e) : IdealName ident (some c) (c ++ "_")

/-- The name is that of the class, followed by nothing or a number. -/
def LikeClass (inner name suffix : String) : Prop :=
  name = inner ++ suffix ∧ (suffix = "" ∨ parsesU32 suffix = true)

/-- What a function is bound as, with the name it is to have. `inner` is the innermost name of a class. -/
inductive BoundAs (f : FuncToConvert) (inner : QName → String) (constRef : Bool) (ideal : String) :
    FnKind → String → Prop
  | cast {target q : QName} {mu : CastMutability} {r : Option ReceiverMutability}
      (h : f.addToTrait = some (.cast target mu))
      (hm : MemberOf f q r) : BoundAs f inner constRef ideal (.traitMethod .cast q (castDetails q target mu)) ideal
  | alloc {q : QName} (h : f.addToTrait = some (.allocUninitialized q)) : BoundAs f inner constRef ideal
      (.traitMethod .alloc q (allocDetails q "allocate_uninitialized_cpp_storage")) ideal
  | dealloc {q : QName} (h : f.addToTrait = some (.freeUninitialized q)) : BoundAs f inner constRef ideal
      (.traitMethod .dealloc q (allocDetails q "free_uninitialized_cpp_storage")) ideal
  | free (h : f.addToTrait = none) (hf : FreeFunction f) : BoundAs f inner constRef ideal .function ideal
  | move {q : QName} {r : Option ReceiverMutability} {base : String} (h : f.addToTrait = none) (hm : MemberOf f q r)
      (hs : f.specialMember = some .moveConstructor)
      (hb : (∃ suffix, ideal = inner q ++ suffix ∧ base = "new" ++ suffix) ∨
        (∀ suffix, ideal ≠ inner q ++ suffix) ∧ base = ideal) :
      BoundAs f inner constRef ideal (.traitMethod .moveConstructor q (copyMoveDetails q true)) base
  | copy {q : QName} {r : Option ReceiverMutability} {base : String} (h : f.addToTrait = none) (hm : MemberOf f q r)
      (hs : f.specialMember = some .copyConstructor) (hc : constRef = true)
      (hb : (∃ suffix, ideal = inner q ++ suffix ∧ base = "new" ++ suffix) ∨
        (∀ suffix, ideal ≠ inner q ++ suffix) ∧ base = ideal) :
      BoundAs f inner constRef ideal (.traitMethod .copyConstructor q (copyMoveDetails q false)) base
  | copyOfMutable {q : QName} {r : Option ReceiverMutability} {base : String} (h : f.addToTrait = none)
      (hm : MemberOf f q r) (hs : f.specialMember = some .copyConstructor) (hc : constRef = false)
      (hb : (∃ suffix, ideal = inner q ++ suffix ∧ base = "new" ++ suffix) ∨
        (∀ suffix, ideal ≠ inner q ++ suffix) ∧ base = ideal) :
      BoundAs f inner constRef ideal (.method (.constructor false) q) base
  | destructor {q : QName} {r : Option ReceiverMutability} (h : f.addToTrait = none) (hm : MemberOf f q r)
      (hs : f.specialMember = some .destructor) :
      BoundAs f inner constRef ideal (.traitMethod .destructor q (dropDetails q)) ideal
  | constructor_ {q : QName} {r : Option ReceiverMutability} {suffix : String} (h : f.addToTrait = none)
      (hm : MemberOf f q r) (h1 : f.specialMember ≠ some .moveConstructor)
      (h2 : f.specialMember ≠ some .copyConstructor) (h3 : f.specialMember ≠ some .destructor)
      (hn : LikeClass (inner q) ideal suffix) :
      BoundAs f inner constRef ideal
        (.method (.constructor (f.specialMember = some .defaultConstructor)) q) ("new" ++ suffix)
  | static {q : QName} (h : f.addToTrait = none)
      (hm : MemberOf f q none) (h1 : f.specialMember ≠ some .moveConstructor)
      (h2 : f.specialMember ≠ some .copyConstructor) (h3 : f.specialMember ≠ some .destructor)
      (hn : ∀ suffix, ¬ LikeClass (inner q) ideal suffix) :
      BoundAs f inner constRef ideal (.method .static q) ideal
  | method {q : QName} {r : ReceiverMutability} (h : f.addToTrait = none)
      (hm : MemberOf f q (some r)) (h1 : f.specialMember ≠ some .moveConstructor)
      (h2 : f.specialMember ≠ some .copyConstructor) (h3 : f.specialMember ≠ some .destructor)
      (hn : ∀ suffix, ¬ LikeClass (inner q) ideal suffix) (hv : f.virtualness = none) :
      BoundAs f inner constRef ideal (.method .normal q) ideal
  | virtual_ {q : QName} {r : ReceiverMutability} (h : f.addToTrait = none)
      (hm : MemberOf f q (some r)) (h1 : f.specialMember ≠ some .moveConstructor)
      (h2 : f.specialMember ≠ some .copyConstructor) (h3 : f.specialMember ≠ some .destructor)
      (hn : ∀ suffix, ¬ LikeClass (inner q) ideal suffix) (hv : f.virtualness = some .virtual) :
      BoundAs f inner constRef ideal (.method (.virtual r) q) ideal
  | pureVirtual {q : QName} {r : ReceiverMutability} (h : f.addToTrait = none)
      (hm : MemberOf f q (some r)) (h1 : f.specialMember ≠ some .moveConstructor)
      (h2 : f.specialMember ≠ some .copyConstructor) (h3 : f.specialMember ≠ some .destructor)
      (hn : ∀ suffix, ¬ LikeClass (inner q) ideal suffix) (hv : f.virtualness = some .pureVirtual) :
      BoundAs f inner constRef ideal (.method (.pureVirtual r) q) ideal

/-! ### The proof -/

theorem ideal_done {ident : Ident} {cpp : Option String} {r : String} (h : idealRustName ident cpp = .done r) :
    IdealName ident cpp r := by
  cases cpp with
  | none => cases h; exact .own
  | some c =>
    rw [idealRustName] at h
    split at h
    · rename_i hu
      cases h
      exact .under (of_decide_eq_true hu)
    · rename_i hu
      have hu : ident.toList.getLast? ≠ some '_' := fun e => hu (by rw [endsWithU]; simpa using e)
      rw [nameBadForRust] at h
      split at h
      · rename_i hv; cases h; exact .cpp hu hv
      · rename_i hv; cases h; exact .escaped hu hv
      · cases h

/-- The class which the parameters say a function belongs to. -/
theorem ParamFates.this {env : FnEnv} {ns : List String} {diag : QName} {m : ArgMode} {s s' : FnState}
    {l : List FnArg} {ps : List (FnArg × ArgumentAnalysis)} {es : List Err}
    (h : ParamFates env ns diag m s l s' ps es) (he : es = []) :
    (thisOf l = none ∧ selfOfParams ps = none) ∨ ∃ ty q ty', thisOf l = some ty ∧
      thisType m.virtualThis diag ty = .done (.ok (q, ty')) ∧ selfOfParams ps = some q := by
  induction h with
  | nil => exact .inl ⟨rfl, rfl⟩
  | bad => cases he
  | good h t ih =>
    obtain ⟨nm, ty, self, into, hp, hn⟩ := convertFnArg_ok h
    obtain ⟨st, a, conv, hc, _, hv, rfl⟩ := convertNamedArg_ok hn
    cases hp with
    | thisRef ht hr => exact .inr ⟨_, _, _, by simp [thisOf], ht, rfl⟩
    | thisPtr ht hr => exact .inr ⟨_, _, _, by simp [thisOf], ht, rfl⟩
    | other hne hval =>
      rw [thisOf, if_neg hne]
      exact ih he

theorem thisType_done {v : Option QName} {diag : QName} {ty ty' : Ty} {q : QName × ReceiverMutability}
    (h : thisType v diag ty = .done (.ok (q, ty'))) : ∃ mu segs args, ty = .ptr mu (.path segs args) ∧
      q.2 = (if mu then .mutable else .const) ∧ (v = some q.1 ∨ v = none ∧ PointsAt segs args q.1) := by
  rw [thisType.eq_def] at h
  split at h
  · rename_i mu segs args
    dsimp only at h
    split at h
    · cases h; exact ⟨_, _, _, rfl, rfl, .inl rfl⟩
    · split at h
      · cases h
      · rename_i q' hq
        cases h
        refine ⟨_, _, _, rfl, rfl, .inr ⟨rfl, ?_⟩⟩
        rw [unwrapMarker] at hq
        by_cases hs : segs = ["__bindgen_marker_Opaque"]
        · rw [if_pos hs] at hq
          split at hq
          · rename_i hh
            exact .inr (.inl ⟨_, _, hs, hh, hq⟩)
          · rename_i hh
            cases ha : args.head? with
            | none => exact .inl ⟨(fun t _ e => by rw [ha] at e; cases e), hq⟩
            | some t =>
              refine .inr (.inr ⟨t, hs, ha, fun s a e => ?_, hq⟩)
              rw [ha, e] at hh
              exact hh s a rfl
        · rw [if_neg hs] at hq
          exact .inl ⟨fun _ e => absurd e hs, hq⟩
  · cases h

/-- The class of a function, as the analysis finds it. -/
theorem member_found {env : FnEnv} {ns : List String} {diag : QName} {m : ArgMode} {s s' : FnState} {f : FuncToConvert}
    {ps : List (FnArg × ArgumentAnalysis)} (h : ParamFates env ns diag m s f.inputs s' ps [])
    (hm : m.virtualThis = f.synthesizedThisType) {q : QName} (hq : (match selfOfParams ps with
      | some q => some q.1
      | none => f.selfTy) = some q) :
    MemberOf f q ((selfOfParams ps).map (·.2)) := by
  rcases h.this rfl with ⟨h1, h2⟩ | ⟨ty, q', ty', h1, h2, h3⟩
  · rw [h2] at hq ⊢
    exact .static h1 hq
  · rw [h3] at hq ⊢
    cases hq
    obtain ⟨mu, segs, args, rfl, hr, hp⟩ := thisType_done h2
    rw [hm] at hp
    show MemberOf f q'.1 (some q'.2)
    rw [hr]
    rcases hp with hp | ⟨hp, hp'⟩
    · exact .made h1 hp
    · exact .object h1 hp hp'

theorem stripPrefix_some {s p r : String} : stripPrefix s p = some r ↔ s = p ++ r := by
  constructor
  · intro h
    rw [stripPrefix, stripPrefixL] at h
    split at h
    · rename_i hp
      obtain ⟨t, ht⟩ := List.isPrefixOf_iff_prefix.1 hp
      simp only [Option.map_some, Option.some.injEq] at h
      rw [← ht, List.drop_left] at h
      rw [← h, ← String.toList_inj, String.toList_append, String.toList_ofList, ht]
    · cases h
  · rintro rfl
    exact stripPrefix_append p r

theorem like_class {inner name : String} : (∀ suffix, constructorWithSuffix name inner = some suffix ↔ LikeClass inner name suffix) := by
  intro suffix
  rw [constructorWithSuffix, LikeClass]
  cases h : stripPrefix name inner with
  | none =>
    simp only [reduceCtorEq, false_iff, not_and]
    intro e
    rw [stripPrefix_some.2 e] at h
    cases h
  | some r =>
    have e := stripPrefix_some.1 h
    dsimp only
    subst e
    constructor
    · intro h'
      split at h'
      · rename_i hs
        cases h'
        exact ⟨rfl, by simpa using hs⟩
      · cases h'
    · rintro ⟨h1, h2⟩
      have := stripPrefix_some.2 h1
      rw [h] at this
      cases this
      rw [if_pos (by simpa using h2)]

theorem base_name {inner ideal base : String} (h : base = (match stripPrefix ideal inner with
    | some suffix => "new" ++ suffix
    | none => ideal)) : (∃ suffix, ideal = inner ++ suffix ∧ base = "new" ++ suffix) ∨
      (∀ suffix, ideal ≠ inner ++ suffix) ∧ base = ideal := by
  cases hs : stripPrefix ideal inner with
  | some r => rw [hs] at h; exact .inl ⟨r, stripPrefix_some.1 hs, h⟩
  | none =>
    rw [hs] at h
    refine .inr ⟨fun suffix e => ?_, h⟩
    rw [stripPrefix_some.2 e] at hs
    cases hs

/-- The name the overload tracker of a namespace gives. -/
def Tracked (s : FnState) (ns : List String) (ty : Option String) (base : String) (s' : FnState) (n : String) : Prop :=
  n = (((AMap.get? s.overloads ns).getD {}).getName ty base).2 ∧
    s' = { s with overloads := AMap.insert s.overloads ns (((AMap.get? s.overloads ns).getD {}).getName ty base).1 }

/-- How a function gets its name: methods may have it already. -/
inductive Named (s : FnState) (ns : List String) (pre : Option String) (base : String) :
    FnKind → FnState → String → Prop
  | function {s' : FnState} {n : String} (h : Tracked s ns none base s' n) : Named s ns pre base .function s' n
  | cast {q : QName} {d : TraitMethodDetails} {s' : FnState} {n : String} (h : Tracked s ns none base s' n) :
      Named s ns pre base (.traitMethod .cast q d) s' n
  | storage {k : TraitMethodKind} {q : QName} {d : TraitMethodDetails} {s' : FnState} {n : String}
      (hk : k = .alloc ∨ k = .dealloc) (h : Tracked s q.ns none base s' n) :
      Named s ns pre base (.traitMethod k q d) s' n
  | given {k : FnKind} {n : String} (hk : k ≠ .function)
      (hk' : ∀ t q d, k = .traitMethod t q d → t ≠ .cast ∧ t ≠ .alloc ∧ t ≠ .dealloc) (hp : pre = some n) :
      Named s ns pre base k s n
  | member {k : FnKind} {q : QName} {s' : FnState} {n : String}
      (hk : (∃ mk, k = .method mk q) ∨ ∃ t d, k = .traitMethod t q d ∧ t ≠ .cast ∧ t ≠ .alloc ∧ t ≠ .dealloc)
      (hp : pre = none) (h : Tracked s ns (some q.name) base s' n) : Named s ns pre base k s' n

theorem named_member {s : FnState} {ns : List String} {pre : Option String} {base : String} {k : FnKind} {q : QName}
    (hk : (∃ mk, k = .method mk q) ∨ ∃ t d, k = .traitMethod t q d ∧ t ≠ .cast ∧ t ≠ .alloc ∧ t ≠ .dealloc) :
    Named s ns pre base k (methodName s ns q.name pre base).1 (methodName s ns q.name pre base).2 := by
  cases pre with
  | some p =>
    refine .given ?_ ?_ rfl
    · rcases hk with ⟨_, rfl⟩ | ⟨_, _, rfl, _⟩ <;> simp
    · intro t q' d e
      rcases hk with ⟨_, rfl⟩ | ⟨_, _, rfl, h⟩
      · cases e
      · cases e; exact h
  | none => exact .member hk rfl ⟨rfl, rfl⟩

/-- The decision is the one the declaration asks for. -/
theorem decideKind_done {env : FnEnv} {s s' : FnState} {ns : List String} {f : FuncToConvert} {ideal : String}
    {pre : Option String} {cls : Option QName} {isStatic : Bool} {recv : Option ReceiverMutability} {ref : Bool}
    {kn : KindAndName} (h : decideKind env s ns f ideal pre cls isStatic recv ref = .done (s', kn))
    (hcls : ∀ q, cls = some q → MemberOf f q recv) (hfree : cls = none → FreeFunction f)
    (hst : cls.isSome = true → (isStatic = true ↔ recv = none)) :
    ∃ base, BoundAs f (fun q => (AMap.get? env.nested q).getD q.name) ref ideal kn.kind base ∧
      Named s ns pre base kn.kind s' kn.rustName := by
  rw [decideKind.eq_def] at h
  split at h
  · rename_i t ht
    rw [traitKind.eq_def] at h
    split at h
    · split at h
      · cases h
      · rename_i q _ _
        cases h
        exact ⟨ideal, .cast ht (hcls _ rfl), .cast ⟨rfl, rfl⟩⟩
    · cases h
      exact ⟨ideal, .alloc ht, .storage (.inl rfl) ⟨rfl, rfl⟩⟩
    · cases h
      exact ⟨ideal, .dealloc ht, .storage (.inr rfl) ⟨rfl, rfl⟩⟩
  · rename_i ht
    split at h
    · rename_i q
      have hm := hcls q rfl
      dsimp only at h
      split at h
      · rename_i hs
        rw [copyMoveKind] at h
        simp only [if_true] at h
        cases h
        exact ⟨_, .move ht hm hs (base_name rfl), named_member (.inr ⟨_, _, rfl, by simp⟩)⟩
      · rename_i hs
        rw [copyMoveKind] at h
        simp only [Bool.false_eq_true, if_false] at h
        cases ref with
        | true => cases h; exact ⟨_, .copy ht hm hs rfl (base_name rfl), named_member (.inr ⟨_, _, rfl, by simp⟩)⟩
        | false => cases h; exact ⟨_, .copyOfMutable ht hm hs rfl (base_name rfl), named_member (.inl ⟨_, rfl⟩)⟩
      · rename_i hs
        cases h
        exact ⟨_, .destructor ht hm hs, named_member (.inr ⟨_, _, rfl, by simp⟩)⟩
      · rename_i h1 h2 h3
        rw [plainMethodKind.eq_def] at h
        split at h
        · rename_i suffix hsuf
          cases h
          exact ⟨_, .constructor_ ht hm h1 h2 h3 ((like_class _).1 hsuf), named_member (.inl ⟨_, rfl⟩)⟩
        · rename_i hsuf
          have hn : ∀ suffix, ¬ LikeClass ((AMap.get? env.nested q).getD q.name) ideal suffix := by
            intro suffix hl
            rw [(like_class _).2 hl] at hsuf
            cases hsuf
          split at h
          · rename_i hstat
            cases h
            have := (hst rfl).1 hstat
            subst this
            exact ⟨_, .static ht hm h1 h2 h3 hn, named_member (.inl ⟨_, rfl⟩)⟩
          · split at h
            · cases h
            · rename_i r
              cases h
              cases hv : f.virtualness with
              | none => exact ⟨_, .method ht hm h1 h2 h3 hn hv, named_member (.inl ⟨_, rfl⟩)⟩
              | some v =>
                cases v with
                | virtual => exact ⟨_, .virtual_ ht hm h1 h2 h3 hn hv, named_member (.inl ⟨_, rfl⟩)⟩
                | pureVirtual => exact ⟨_, .pureVirtual ht hm h1 h2 h3 hn hv, named_member (.inl ⟨_, rfl⟩)⟩
    · cases h
      exact ⟨_, .free ht (hfree rfl), .function ⟨rfl, rfl⟩⟩

/-- Converting types leaves the names alone. -/
theorem convertFnArg_overloads {env : FnEnv} {s s' : FnState} {ns : List String} {diag : QName} {m : ArgMode} {i : FnArg}
    {r : Except Err (FnArg × ArgumentAnalysis)} (h : convertFnArg env s ns diag m i = .done (s', r)) :
    s'.overloads = s.overloads := by
  have boxed : ∀ {s s' : FnState} {ty : Ty} {r : Except Err (Annotated Ty)},
      convertBoxed env s ns ty = .done (s', r) → s'.overloads = s.overloads := by
    intro s s' ty r h
    cases r with
    | error e => obtain ⟨st, _, rfl⟩ := convertBoxed_err h; rfl
    | ok a => obtain ⟨st, _, rfl⟩ := convertBoxed_ok h; rfl
  have named : ∀ {nm : Ident} {ty : Ty} {q : Option (QName × ReceiverMutability)} {b : Bool},
      convertNamedArg env s ns m nm ty q b = .done (s', r) → s'.overloads = s.overloads := by
    intro nm ty q b h
    rw [convertNamedArg] at h
    obtain ⟨⟨s1, x⟩, h1, h⟩ := PassRun.bind_done.1 h
    rw [← boxed h1]
    cases x with
    | error e => cases h; rfl
    | ok a =>
      dsimp only at h
      split at h <;> cases h
      rfl
  cases i with
  | receiver t => cases h
  | typed nm ty =>
    rw [convertFnArg] at h
    split at h
    · obtain ⟨x, hx, h⟩ := PassRun.bind_done.1 h
      cases x with
      | error e => cases h; rfl
      | ok q =>
        obtain ⟨q, ty'⟩ := q
        dsimp only at h
        split at h <;> exact named h
    · split at h
      · cases h
      · cases h; rfl
      · exact named h

theorem ParamFates.overloads {env : FnEnv} {ns : List String} {diag : QName} {m : ArgMode} {s s' : FnState}
    {l : List FnArg} {ps : List (FnArg × ArgumentAnalysis)} {es : List Err}
    (h : ParamFates env ns diag m s l s' ps es) : s'.overloads = s.overloads := by
  induction h with
  | nil => rfl
  | good h _ ih => rw [ih, convertFnArg_overloads h]
  | bad h _ ih => rw [ih, convertFnArg_overloads h]

theorem reanalyze_overloads {env : FnEnv} {s s' : FnState} {ns : List String} {diag : QName} {inputs : List FnArg}
    {m : ArgMode} {idx : Nat} {ps ps' : List (FnArg × ArgumentAnalysis)} {e : Option Err}
    (h : reanalyze env s ns diag inputs m idx ps = .done (s', ps', e)) : s'.overloads = s.overloads := by
  obtain ⟨i, _, ⟨p, h1, _⟩ | ⟨x, h1, _⟩⟩ := reanalyze_done h <;> exact convertFnArg_overloads h1

theorem reanalyzeParams_overloads {env : FnEnv} {s s' : FnState} {ns : List String} {diag : QName} {f : FuncToConvert}
    {soph : Sophistication} {kind : FnKind} {ps ps' : List (FnArg × ArgumentAnalysis)} {e : Option Err}
    (h : reanalyzeParams env s ns diag f soph kind ps = .done (s', ps', e)) : s'.overloads = s.overloads := by
  rw [reanalyzeParams.eq_def] at h
  dsimp only at h
  split at h
  · exact reanalyze_overloads h
  · exact reanalyze_overloads h
  · obtain ⟨⟨s1, ps1, e1⟩, h1, h⟩ := PassRun.bind_done.1 h
    cases h
    exact reanalyze_overloads h1
  · obtain ⟨⟨s1, ps1, e1⟩, h1, h⟩ := PassRun.bind_done.1 h
    obtain ⟨⟨s2, ps2, e2⟩, h2, h⟩ := PassRun.bind_done.1 h
    cases h
    exact (reanalyze_overloads h2).trans (reanalyze_overloads h1)
  · cases h; rfl

theorem convertReturn_overloads {env : FnEnv} {s s' : FnState} {ns : List String} {diag : QName} {soph : Sophistication}
    {ty : Option Ty} {r : Except Err ReturnAnalysis} (h : convertReturn env s ns diag soph ty = .done (s', r)) :
    s'.overloads = s.overloads := by
  cases ty with
  | none => cases h; rfl
  | some ty =>
    rw [convertReturn] at h
    obtain ⟨⟨s1, x⟩, h1, h⟩ := PassRun.bind_done.1 h
    have e1 : s1.overloads = s.overloads := by
      cases x with
      | error e => obtain ⟨st, _, rfl⟩ := convertBoxed_err h1; rfl
      | ok a => obtain ⟨st, _, rfl⟩ := convertBoxed_ok h1; rfl
    rw [← e1]
    cases x with
    | error e => cases h; rfl
    | ok a =>
      dsimp only at h
      split at h
      · split at h
        · cases h
        · split at h
          · split at h <;> cases h
            rfl
          · rw [valueReturn] at h
            split at h
            · obtain ⟨⟨s2, y⟩, h2, h⟩ := PassRun.bind_done.1 h
              rw [← convertFnArg_overloads h2]
              cases y <;> cases h <;> rfl
            · cases h; rfl
      · split at h <;> cases h
        rfl

theorem FnSteps.bound {env : FnEnv} {s s' : FnState} {name n : ApiName} {f : FuncToConvert} {soph : Sophistication}
    {pre : Option String} {a : FnAnalysis} (t : FnSteps env s name f soph pre s' a n) (hb : t.bads = []) :
    ∃ base, BoundAs f (fun q => (AMap.get? env.nested q).getD q.name) (secondIsRef t.ps) t.ideal a.kind base ∧
      Named t.s1 name.name.ns pre base a.kind t.s2 a.rustName := by
  have hp := t.hparams
  rw [hb] at hp
  rw [t.kind_eq, t.name_eq]
  exact decideKind_done t.hkind (fun q hq => member_found hp rfl hq)
    (by
      intro hn
      rcases hp.this rfl with ⟨h1, h2⟩ | ⟨_, _, _, _, _, h2⟩
      · rw [h2] at hn; exact ⟨h1, hn⟩
      · rw [h2] at hn; cases hn)
    (by
      intro hs
      cases hself : selfOfParams t.ps with
      | none => rw [hself] at hs; simpa using hs
      | some q => simp)

/-- C64: a function all of whose parameters could be converted – as for any function which is offered – is bound as what
it is by its declaration, and its name is what the overload tracker gives for the name it should have. -/
theorem bound_as {env : FnEnv} {s s' : FnState} {name n : ApiName} {f : FuncToConvert} {soph : Sophistication}
    {pre : Option String} {a : FnAnalysis} (h : analyzeForeignFn env s name f soph pre = .done (s', a, n))
    (hx : a.ignoreReason = none) :
    ∃ ideal base ref s1 s2, IdealName f.ident name.cppName ideal ∧
      BoundAs f (fun q => (AMap.get? env.nested q).getD q.name) ref ideal a.kind base ∧
      Named s1 name.name.ns pre base a.kind s2 a.rustName ∧
      s1.overloads = s.overloads ∧ s'.overloads = s2.overloads := by
  obtain ⟨t⟩ := analyze_steps h
  obtain ⟨_, _, _, hb, _, _⟩ := exposed_parts t hx
  obtain ⟨base, h1, h2⟩ := t.bound hb
  refine ⟨t.ideal, base, _, t.s1, t.s2, ideal_done t.hideal, h1, h2, t.hparams.overloads, ?_⟩
  rw [← reanalyzeParams_overloads t.hre]
  have h4 : t.s4.overloads = t.s3.overloads := by rw [t.hs4]
  rw [← h4]
  rcases t.hret with ⟨hr, _⟩ | ⟨e, hr, _, _⟩
  · exact convertReturn_overloads hr
  · exact convertReturn_overloads hr

theorem pointsAt_unique {segs : List String} {args : List Ty} {q q' : QName} (h : PointsAt segs args q)
    (h' : PointsAt segs args q') : q = q' := by
  rcases h with ⟨h1, h2⟩ | ⟨s, a, h1, h2, h3⟩ | ⟨t, h1, h2, h3, h4⟩ <;>
    rcases h' with ⟨k1, k2⟩ | ⟨s', a', k1, k2, k3⟩ | ⟨t', k1, k2, k3, k4⟩
  · exact Option.some.inj (h2.symm.trans k2)
  · exact absurd k2 (h1 _ k1)
  · exact absurd k2 (h1 _ k1)
  · exact absurd h2 (k1 _ h1)
  · rw [h2] at k2; cases k2; exact Option.some.inj (h3.symm.trans k3)
  · rw [h2] at k2; cases k2; exact absurd rfl (k3 _ _)
  · exact absurd h2 (k1 _ h1)
  · rw [h2] at k2; cases k2; exact absurd rfl (h3 _ _)
  · exact Option.some.inj (h4.symm.trans k4)

/-- A function is a member of one class only. -/
theorem member_unique {f : FuncToConvert} {q q' : QName} {r r' : Option ReceiverMutability} (h : MemberOf f q r)
    (h' : MemberOf f q' r') : q = q' ∧ r = r' := by
  cases h with
  | made h1 h2 =>
    cases h' with
    | made k1 k2 => rw [h1] at k1; cases k1; rw [h2] at k2; cases k2; exact ⟨rfl, rfl⟩
    | object k1 k2 => rw [h2] at k2; cases k2
    | static k1 => rw [h1] at k1; cases k1
  | object h1 h2 h3 =>
    cases h' with
    | made k1 k2 => rw [h2] at k2; cases k2
    | object k1 k2 k3 => rw [h1] at k1; cases k1; exact ⟨pointsAt_unique h3 k3, rfl⟩
    | static k1 => rw [h1] at k1; cases k1
  | static h1 h2 =>
    cases h' with
    | made k1 => rw [h1] at k1; cases k1
    | object k1 => rw [h1] at k1; cases k1
    | static k1 k2 => rw [h2] at k2; cases k2; exact ⟨rfl, rfl⟩

theorem free_not_member {f : FuncToConvert} (h : FreeFunction f) {q : QName} {r : Option ReceiverMutability}
    (hm : MemberOf f q r) : False := by
  cases hm with
  | made k1 => rw [h.1] at k1; cases k1
  | object k1 => rw [h.1] at k1; cases k1
  | static k1 k2 => rw [h.2] at k2; cases k2

/-- **C64 (partial)**: where references are plain, a copy constructor which takes a constant reference, as it should, is
offered as one – unlike where references are wrapped: see `copy_wrapped_false`. -/
theorem copy_constructor_partial {env : FnEnv} {s s' : FnState} {name n : ApiName} {f : FuncToConvert}
    {soph : Sophistication} {pre : Option String} {a : FnAnalysis} (hpl : env.PlainReferences)
    (h : analyzeForeignFn env s name f soph pre = .done (s', a, n)) (hx : a.ignoreReason = none)
    (hs : f.specialMember = some .copyConstructor) (ht : f.addToTrait = none) {q : QName}
    {r : Option ReceiverMutability} (hm : MemberOf f q r) {first : FnArg} {nm : Ident} (hnm : nm ≠ "this") {e : Ty}
    (hin : f.inputs = [first, .typed nm (.path ["__bindgen_marker_Reference"] [.ptr false e])]) :
    a.kind = .traitMethod .copyConstructor q (copyMoveDetails q false) := by
  obtain ⟨t⟩ := analyze_steps h
  obtain ⟨_, _, _, hb, _, _⟩ := exposed_parts t hx
  obtain ⟨base, h1, _⟩ := t.bound hb
  have href : secondIsRef t.ps = true := by
    have hp := t.hparams
    rw [hb, hin] at hp
    generalize t.ps = ps at hp ⊢
    generalize hes : ([] : List Err) = es at hp
    cases hp with
    | bad => cases hes
    | good _ hp =>
      cases hp with
      | bad => cases hes
      | good h2 _ =>
        rename_i p _ _
        obtain ⟨_, h2⟩ := convertFnArg_other hnm h2
        obtain ⟨st, b, conv, hc, _, hv, rfl⟩ := convertNamedArg_ok h2
        obtain ⟨x, hx1, hx2⟩ : ∃ x, b.ty = .ref false none x ∧ b.kind = .reference := by
          cases hf : env.fuel with
          | zero => rw [hf] at hc; cases hc
          | succ k =>
            rw [hf] at hc
            rw [convertType] at hc
            simp only [unwrapMarker, unwrapReference, List.cons.injEq, reduceCtorEq, String.reduceEq, and_true, if_false,
              if_true, Bool.false_eq_true, List.head?_cons] at hc
            obtain ⟨_, c, _, hc⟩ := thenDo_ok hc
            cases hc
            exact ⟨_, rfl, rfl⟩
        rw [argConversion, hx1, hx2] at hv
        simp only [reduceCtorEq, false_and, if_false] at hv
        rw [if_neg (by exact fun hh => hpl hh.1)] at hv
        cases hv
        rfl
  rw [href] at h1
  generalize a.kind = k at h1 ⊢
  cases h1 with
  | cast h' => rw [ht] at h'; cases h'
  | alloc h' => rw [ht] at h'; cases h'
  | dealloc h' => rw [ht] at h'; cases h'
  | free _ hf => exact (free_not_member hf hm).elim
  | move _ _ hs' => rw [hs] at hs'; cases hs'
  | copy _ hm' => rw [(member_unique hm hm').1]
  | copyOfMutable _ _ _ hc => cases hc
  | destructor _ _ hs' => rw [hs] at hs'; cases hs'
  | constructor_ _ _ _ h2 => exact absurd hs h2
  | static _ _ _ h2 => exact absurd hs h2
  | method _ _ _ h2 => exact absurd hs h2
  | virtual_ _ _ _ h2 => exact absurd hs h2
  | pureVirtual _ _ _ h2 => exact absurd hs h2

end Verif
