import Verif.Policy
import Verif.Util
import Mathlib.Tactic.Push
import Verif.KnownTypesProps
import Verif.DecideKnown

/-!
# What the conversion of arguments and results guarantees

C18 (unsafe functions), C25 (the C++ and Rust sides agree about every type), C51 (inverting a conversion).
-/

set_option autoImplicit false

namespace Verif

/-! ## C25: spellings -/

/-- The names `Pin` goes by. -/
def pinNames : List QName := [⟨["core", "pin"], "Pin"⟩, ⟨["std", "pin"], "Pin"⟩, ⟨[], "Pin"⟩]

/-- How a type named in a `cxx::bridge` is spelt in the C++ which `cxx` generates for it. `name` is the C++ name of
a type. -/
inductive CxxSpelling (name : QName → String) : Ty → String → Prop
  | named {segs : List String} {q : QName} (h : QName.ofTypePath segs = some q) :
      CxxSpelling name (.path segs []) (name q)
  | generic {segs : List String} {q : QName} {args : List Ty} {ss : List String}
      (h : QName.ofTypePath segs = some q) (hne : args ≠ []) (ha : All2 (CxxSpelling name) args ss) :
      CxxSpelling name (.path segs args) (name q ++ "<" ++ joinWith ", " ss ++ ">")
  | uniquePtr {t : Ty} {s : String} (h : CxxSpelling name t s) :
      CxxSpelling name (.path ["cxx", "UniquePtr"] [t]) ("std::unique_ptr<" ++ s ++ ">")
  | pin {segs : List String} {q : QName} {a : Ty} {r : List Ty} {s : String} (hq : QName.ofTypePath segs = some q)
      (hp : q ∈ pinNames) (h : CxxSpelling name a s) : CxxSpelling name (.path segs (a :: r)) s
  | str (m : Bool) (l : Option String) : CxxSpelling name (.ref m l (.path ["str"] [])) "rust::Str"
  | mutRef {l : Option String} {t : Ty} {s : String} (h : CxxSpelling name t s) :
      CxxSpelling name (.ref true l t) (s ++ "&")
  | constRef {l : Option String} {t : Ty} {s : String} (h : CxxSpelling name t s) :
      CxxSpelling name (.ref false l t) ("const " ++ s ++ "&")
  | mutPtr {t : Ty} {s : String} (h : CxxSpelling name t s) : CxxSpelling name (.ptr true t) (s ++ "*")
  | constPtr {t : Ty} {s : String} (h : CxxSpelling name t s) :
      CxxSpelling name (.ptr false t) ("const " ++ s ++ "*")

/-- Only `Pin` is called `Pin`. -/
def PinOnly (m : CppNameMap) : Prop := ∀ q, m.map q = "Pin" → q ∈ pinNames

theorem Outcome.bind_ok {α β : Type} {o : Outcome α} {f : α → Outcome β} {b : β} (h : o.bind f = .ok b) :
    ∃ a, o = .ok a ∧ f a = .ok b := by
  cases o with
  | ok a => exact ⟨a, rfl, h⟩
  | err e => cases h
  | panic => cases h

mutual
theorem typeToCpp_spelling (m : CppNameMap) (hp : PinOnly m) :
    (t : Ty) → {s : String} → m.typeToCpp t = .ok s → CxxSpelling m.map t s
  | .path segs args, s, h => by
    rw [CppNameMap.typeToCpp.eq_def] at h
    dsimp only at h
    cases hq : QName.ofTypePath segs with
    | none => rw [hq] at h; cases h
    | some q =>
      rw [hq] at h
      dsimp only at h
      split at h
      · rename_i hpin
        match args, h with
        | a :: r, h => exact .pin hq (hp _ hpin) (typeToCpp_spelling m hp a h)
      · match args, h with
        | [], h => cases h; exact .named hq
        | a :: r, h =>
          obtain ⟨s1, h1, h⟩ := Outcome.bind_ok h
          obtain ⟨ss, h2, h⟩ := Outcome.bind_ok h
          cases h
          exact .generic hq (by simp) (.cons (typeToCpp_spelling m hp a h1) (typesToCpp_spelling m hp r h2))
  | .ref mu l e, s, h => by
    rw [CppNameMap.typeToCpp] at h
    split at h
    · rename_i he
      subst he
      cases h
      exact .str mu l
    · obtain ⟨s1, h1, h⟩ := Outcome.bind_ok h
      cases h
      cases mu with
      | true =>
        have := typeToCpp_spelling m hp e h1
        simpa [constPrefix] using CxxSpelling.mutRef (l := l) this
      | false => exact .constRef (typeToCpp_spelling m hp e h1)
  | .ptr mu e, s, h => by
    rw [CppNameMap.typeToCpp] at h
    obtain ⟨s1, h1, h⟩ := Outcome.bind_ok h
    cases h
    cases mu with
    | true => simpa [constPrefix] using CxxSpelling.mutPtr (typeToCpp_spelling m hp e h1)
    | false => exact .constPtr (typeToCpp_spelling m hp e h1)
  | .array _ _, s, h => by rw [CppNameMap.typeToCpp] at h; cases h
  | .other _, s, h => by rw [CppNameMap.typeToCpp] at h; cases h
theorem typesToCpp_spelling (m : CppNameMap) (hp : PinOnly m) :
    (l : List Ty) → {ss : List String} → m.typesToCpp l = .ok ss → All2 (CxxSpelling m.map) l ss
  | [], ss, h => by rw [CppNameMap.typesToCpp] at h; cases h; exact .nil
  | a :: r, ss, h => by
    rw [CppNameMap.typesToCpp] at h
    obtain ⟨s1, h1, h⟩ := Outcome.bind_ok h
    obtain ⟨ss, h2, h⟩ := Outcome.bind_ok h
    cases h
    exact .cons (typeToCpp_spelling m hp a h1) (typesToCpp_spelling m hp r h2)
end

theorem constPrefix_ptr {name : QName → String} {mu : Bool} {e : Ty} {s : String} (h : CxxSpelling name e s) :
    CxxSpelling name (.ptr mu e) (constPrefix mu ++ s ++ "*") := by
  cases mu with
  | true => simpa [constPrefix] using CxxSpelling.mutPtr h
  | false => exact .constPtr h

/-- C25: what the C++ wrapper says it takes is what the bridge says it is given. -/
theorem argument_types_agree (m : CppNameMap) (hp : PinOnly m) (p : TypeConversionPolicy) {s : String}
    (h : p.unconvertedType m = .ok s) : CxxSpelling m.map p.convertedRustType s := by
  obtain ⟨ty, cc, rc⟩ := p
  have key : ∀ {s}, m.typeToCpp ty = .ok s → CxxSpelling m.map ty s := fun h => typeToCpp_spelling m hp _ h
  cases cc
  case fromUniquePtrToValue =>
    obtain ⟨s1, h1, h⟩ := Outcome.bind_ok h
    cases h
    exact .uniquePtr (key h1)
  case fromPtrToValue =>
    obtain ⟨s1, h1, h⟩ := Outcome.bind_ok h
    cases h
    exact .mutPtr (key h1)
  all_goals exact key h

/-- C25: what the C++ wrapper says it returns is what the bridge says it gets. -/
theorem return_types_agree (m : CppNameMap) (hp : PinOnly m) (p : TypeConversionPolicy) {s : String}
    (h : p.convertedType m = .ok s) : CxxSpelling m.map p.unconvertedRustType s := by
  obtain ⟨ty, cc, rc⟩ := p
  have key : ∀ {s}, m.typeToCpp ty = .ok s → CxxSpelling m.map ty s := fun h => typeToCpp_spelling m hp _ h
  cases cc
  case fromValueToUniquePtr =>
    obtain ⟨s1, h1, h⟩ := Outcome.bind_ok h
    cases h
    exact .uniquePtr (key h1)
  case fromReferenceToPointer =>
    cases ty
    case ptr mu e =>
      obtain ⟨s1, h1, h⟩ := Outcome.bind_ok h
      cases h
      exact constPrefix_ptr (typeToCpp_spelling m hp _ h1)
    all_goals cases h
  all_goals exact key h

/-- No two segments joined spell a name without colons. -/
theorem joinCC_ne_pin {a b : String} {r : List String} : joinCC (a :: b :: r) ≠ "Pin" := by
  intro h
  rw [joinCC] at h
  have h1 := congrArg String.toList h
  rw [String.toList_append, String.toList_append] at h1
  have : ':' ∈ "Pin".toList := by rw [← h1]; simp
  exact absurd this (by decide)

set_option maxRecDepth 10000 in
theorem pin_table : ∀ n ∈ knownTypesLit.allNames,
    OptAll (fun d => d.cppName = "Pin" → n ∈ pinNames) (knownTypesLit.get n) := by decide +kernel

/-- Only a class or alias whose C++ name is `Pin` could be mistaken for `Pin`. -/
theorem pinOnly_of (m : CppNameMap) (h : ∀ q c, AMap.get? m q = some c → c ≠ "Pin") : PinOnly m := by
  intro q hq
  rw [CppNameMap.map] at hq
  cases hm : AMap.get? m q with
  | some c =>
    rw [hm] at hq
    dsimp only at hq
    match hns : q.ns with
    | [] => rw [hns] at hq; exact absurd hq (h _ _ hm)
    | [a] => rw [hns] at hq; exact absurd hq joinCC_ne_pin
    | a :: b :: r => rw [hns] at hq; exact absurd hq joinCC_ne_pin
  | none =>
    rw [hm] at hq
    dsimp only at hq
    rw [QName.toCppName, specialCppName] at hq
    cases hk : knownGet q with
    | some d =>
      rw [hk] at hq
      refine known_forall (fun n d => d.cppName = "Pin" → n ∈ pinNames) ?_ hk hq
      intro n hn d hd
      have := pin_table n hn
      rw [hd] at this
      exact this
    | none =>
      rw [hk] at hq
      dsimp only [Option.map] at hq
      obtain ⟨ns, nm⟩ := q
      rw [QName.segs] at hq
      match ns, hq with
      | [], hq => cases hq; decide
      | [a], hq => exact absurd hq joinCC_ne_pin
      | a :: b :: r, hq => exact absurd hq joinCC_ne_pin

/-- A program with one nested class. -/
def exNames : CppNameMap := [(⟨["ns"], "Outer_Inner"⟩, "Outer::Inner")]

example : PinOnly exNames ∧
    (⟨.path ["output", "ns", "Outer_Inner"] [], .fromPtrToValue, .fromValueParamToPtr⟩ :
      TypeConversionPolicy).unconvertedType exNames = .ok "ns::Outer::Inner*" ∧
    (⟨.path ["cxx", "CxxString"] [], .fromValueToUniquePtr, .none⟩ :
      TypeConversionPolicy).convertedType exNames = .ok "std::unique_ptr<std::string>" :=
  ⟨pinOnly_of _ (by
    intro q c h
    have : c = "Outer::Inner" := by
      simp only [exNames, AMap.get?] at h
      split at h
      · exact (Option.some.inj h).symm
      · cases h
    subst this; decide), by decide_known, by decide_known⟩

/-! ## C51: inverting a conversion -/

/-- The conversions made for arguments which C++ may also send to Rust. -/
def InvertibleConversion : CppConversionType → Prop
  | .move | .fromPtrToMove | .ignoredPlacementPtrParameter | .fromReturnValueToPlacementPtr => False
  | _ => True

/-- C51: inverting panics exactly for the conversions which move or use a placement pointer. -/
theorem inverse_defined (p : TypeConversionPolicy) : p.inverse.isSome ↔ InvertibleConversion p.cppConversion := by
  obtain ⟨ty, cc, rc⟩ := p
  cases cc <;> simp [TypeConversionPolicy.inverse, CppConversionType.inverse, InvertibleConversion]

/-- C51: the inverse of a conversion gives back what the conversion was given: on the C++ side its result has the
type the conversion started from, on the Rust side as well, and inverting twice changes nothing. The pointer to a
value is the exception (`inverse_pointer_false`). -/
theorem inverse_round_trip_partial (p q : TypeConversionPolicy) (m : CppNameMap) (h : p.inverse = some q)
    (hp : p.cppConversion ≠ .fromPtrToValue) (hr : p.cppConversion ≠ .fromPointerToReference ∨
      ∃ mu e, p.unwrappedType = .ptr mu e) :
    q.convertedType m = p.unconvertedType m ∧ q.unconvertedRustType = p.convertedRustType ∧
      q.unwrappedType = p.unwrappedType ∧ q.rustConversion = p.rustConversion ∧ q.inverse = some p := by
  obtain ⟨ty, cc, rc⟩ := p
  cases cc <;> first | exact absurd rfl hp | skip
  case fromPointerToReference =>
    rcases hr with hr | ⟨mu, e, hr⟩
    · exact absurd rfl hr
    · dsimp only at hr
      subst hr
      cases h
      refine ⟨?_, rfl, rfl, rfl, rfl⟩
      dsimp only [TypeConversionPolicy.convertedType, TypeConversionPolicy.unconvertedType]
      rw [CppNameMap.typeToCpp]
  all_goals first | cases h; exact ⟨rfl, rfl, rfl, rfl, rfl⟩ | cases h

/-- C51 fails for a value passed by pointer: its inverse makes a `std::unique_ptr`, not a pointer. -/
theorem inverse_pointer_false : ∃ (p q : TypeConversionPolicy) (m : CppNameMap), p.inverse = some q ∧
    p.unconvertedType m = .ok "A*" ∧ q.convertedType m = .ok "std::unique_ptr<A>" ∧ q.inverse ≠ some p :=
  ⟨⟨.path ["output", "A"] [], .fromPtrToValue, .fromValueParamToPtr⟩,
   ⟨.path ["output", "A"] [], .fromValueToUniquePtr, .fromValueParamToPtr⟩, [], rfl, by decide_known, by decide_known,
   by decide⟩

/-! ## C18: unsafe functions -/

/-- A parameter whose unsafety is none of the caller's business: the object itself, and the place for the result. -/
def ArgumentAnalysis.Hidden (p : ArgumentAnalysis) : Prop := p.selfType.isSome ∨ p.isPlacementReturnDestination

/-- What a function's parameters ask for. -/
def ParamsNeed (ps : List ArgumentAnalysis) (visible : ArgumentAnalysis → Prop) : UnsafetyNeeded → Prop
  | .always => ∃ p ∈ ps, p.requiresUnsafe = .always ∧ visible p
  | .justBridge => (∃ p ∈ ps, p.requiresUnsafe ≠ .none) ∧ ∀ p ∈ ps, visible p → p.requiresUnsafe ≠ .always
  | .none => ∀ p ∈ ps, p.requiresUnsafe = .none

theorem unsafetyStep_need (ig : Bool) {pre : List ArgumentAnalysis} {u : UnsafetyNeeded} (p : ArgumentAnalysis)
    (h : ParamsNeed pre (fun p => ig = true → ¬ p.Hidden) u) :
    ParamsNeed (pre ++ [p]) (fun p => ig = true → ¬ p.Hidden) (unsafetyStep ig u p) := by
  have hid : p.Hidden ↔ (p.selfType.isSome || p.isPlacementReturnDestination) = true := by
    simp [ArgumentAnalysis.Hidden]
  rw [unsafetyStep]
  split
  · rename_i hu
    subst hu
    obtain ⟨a, ha, h⟩ := h
    exact ⟨a, List.mem_append_left _ ha, h⟩
  · rename_i hu
    have hpre : ∀ a ∈ pre, (ig = true → ¬ a.Hidden) → a.requiresUnsafe ≠ .always := by
      cases u with
      | always => exact absurd rfl hu
      | justBridge => exact h.2
      | none => intro a ha _ e; have := h a ha; rw [this] at e; cases e
    split
    · rename_i hi
      rw [Bool.and_eq_true, ← hid] at hi
      have hv : ∀ a ∈ pre ++ [p], (ig = true → ¬ a.Hidden) → a.requiresUnsafe ≠ .always := by
        intro a ha hv
        rcases List.mem_append.1 ha with ha | ha
        · exact hpre a ha hv
        · cases List.mem_singleton.1 ha
          exact absurd hi.1 (hv hi.2)
      split
      · rename_i hj
        refine ⟨⟨p, by simp, ?_⟩, hv⟩
        rcases hj with hj | hj <;> rw [hj] <;> decide
      · rename_i hj
        have hn : p.requiresUnsafe = .none := by
          cases hr : p.requiresUnsafe <;> simp [hr] at hj ⊢
        cases u with
        | always => exact absurd rfl hu
        | justBridge =>
          obtain ⟨⟨a, ha, hne⟩, _⟩ := h
          exact ⟨⟨a, List.mem_append_left _ ha, hne⟩, hv⟩
        | none =>
          intro a ha
          rcases List.mem_append.1 ha with ha | ha
          · exact h a ha
          · cases List.mem_singleton.1 ha; exact hn
    · rename_i hi
      have hvis : ig = true → ¬ p.Hidden := by
        intro hig hh
        rw [Bool.and_eq_true, ← hid] at hi
        exact hi ⟨hh, hig⟩
      split
      · rename_i ha
        exact ⟨p, by simp, ha, hvis⟩
      · rename_i ha
        have hv : ∀ a ∈ pre ++ [p], (ig = true → ¬ a.Hidden) → a.requiresUnsafe ≠ .always := by
          intro a hm hv
          rcases List.mem_append.1 hm with hm | hm
          · exact hpre a hm hv
          · cases List.mem_singleton.1 hm; exact ha
        split
        · rename_i hj
          refine ⟨?_, hv⟩
          rcases hj with hj | hj
          · subst hj
            obtain ⟨⟨a, ha, hne⟩, _⟩ := h
            exact ⟨a, List.mem_append_left _ ha, hne⟩
          · exact ⟨p, by simp, by rw [hj]; decide⟩
        · rename_i hj
          push Not at hj
          intro a hm
          rcases List.mem_append.1 hm with hm | hm
          · cases u with
            | always => exact absurd rfl hu
            | justBridge => exact absurd rfl hj.1
            | none => exact h a hm
          · cases List.mem_singleton.1 hm
            cases hr : p.requiresUnsafe
            · rfl
            · exact absurd hr hj.2
            · exact absurd hr ha

theorem foldl_unsafety (ig : Bool) : ∀ (l pre : List ArgumentAnalysis) (u : UnsafetyNeeded),
    ParamsNeed pre (fun p => ig = true → ¬ p.Hidden) u →
    ParamsNeed (pre ++ l) (fun p => ig = true → ¬ p.Hidden) (l.foldl (unsafetyStep ig) u)
  | [], pre, u, h => by simpa using h
  | p :: l, pre, u, h => by
    have := foldl_unsafety ig l (pre ++ [p]) _ (unsafetyStep_need ig p h)
    simpa using this

/-- C18: what the parameters ask for does not depend on their order: `unsafe` for the caller if a visible one needs
it, `unsafe` in the bridge if any needs it. -/
theorem params_unsafety (ps : List ArgumentAnalysis) (ignoreHidden : Bool) :
    ParamsNeed ps (fun p => ignoreHidden = true → ¬ p.Hidden) (UnsafetyNeeded.fromParams ps ignoreHidden) :=
  foldl_unsafety ignoreHidden ps [] .none (by intro a ha; cases ha)

/-- The trait methods whose traits are unsafe to implement: making and freeing objects. -/
def FnKind.UnsafeTrait : FnKind → Prop
  | .traitMethod k _ _ => k = .copyConstructor ∨ k = .moveConstructor ∨ k = .alloc ∨ k = .dealloc
  | _ => False

/-- Methods of a trait. -/
def FnKind.OfTrait : FnKind → Prop
  | .traitMethod .. => True
  | _ => False

theorem fromParams_always (ps : List ArgumentAnalysis) (ig : Bool) :
    UnsafetyNeeded.fromParams ps ig = .always ↔
      ∃ p ∈ ps, p.requiresUnsafe = .always ∧ (ig = true → ¬ p.Hidden) := by
  have h := params_unsafety ps ig
  constructor
  · intro e; rw [e] at h; exact h
  · rintro ⟨p, hp, ha, hv⟩
    cases hu : UnsafetyNeeded.fromParams ps ig with
    | always => rfl
    | justBridge => rw [hu] at h; exact absurd ha (h.2 p hp hv)
    | none => rw [hu] at h; have := h p hp; rw [this] at ha; cases ha

theorem fromParams_none (ps : List ArgumentAnalysis) (ig : Bool) :
    UnsafetyNeeded.fromParams ps ig = .none ↔ ∀ p ∈ ps, p.requiresUnsafe = .none := by
  have h := params_unsafety ps ig
  constructor
  · intro e; rw [e] at h; exact h
  · intro hn
    cases hu : UnsafetyNeeded.fromParams ps ig with
    | always => rw [hu] at h; obtain ⟨p, hp, ha, _⟩ := h; rw [hn p hp] at ha; cases ha
    | justBridge => rw [hu] at h; obtain ⟨⟨p, hp, ha⟩, _⟩ := h; exact absurd (hn p hp) ha
    | none => rfl

/-- C18: a function is `unsafe` for its callers exactly if it makes or frees objects on behalf of a trait, or it is
not in a trait and the policy makes everything unsafe or a parameter other than the object and the place for the
result is unsafe. -/
theorem caller_unsafe_iff (policy : UnsafePolicy) (ps : List ArgumentAnalysis) (kind : FnKind) :
    (shouldBeUnsafe policy ps kind).wrapperToken = true ↔
      kind.UnsafeTrait ∨ (¬ kind.OfTrait ∧ (policy = .allFunctionsUnsafe ∨
        ∃ p ∈ ps, p.requiresUnsafe = .always ∧ ¬ p.Hidden)) := by
  have h1 := fromParams_always ps true
  have h2 := fromParams_always ps false
  simp only [true_implies] at h1
  rw [← h1]
  cases kind with
  | traitMethod k i d =>
    cases k <;> simp only [shouldBeUnsafe, FnKind.UnsafeTrait, FnKind.OfTrait] <;>
      cases UnsafetyNeeded.fromParams ps false <;> simp [UnsafetyNeeded.wrapperToken]
  | function =>
    simp only [shouldBeUnsafe, FnKind.UnsafeTrait, FnKind.OfTrait, false_or, not_false_eq_true, true_and]
    by_cases hp : policy = .allFunctionsUnsafe <;> simp only [hp, if_true, if_false, true_or, false_or] <;>
      cases UnsafetyNeeded.fromParams ps true <;> cases UnsafetyNeeded.fromParams ps false <;>
      simp [UnsafetyNeeded.wrapperToken]
  | method k i =>
    simp only [shouldBeUnsafe, FnKind.UnsafeTrait, FnKind.OfTrait, false_or, not_false_eq_true, true_and]
    by_cases hp : policy = .allFunctionsUnsafe <;> simp only [hp, if_true, if_false, true_or, false_or] <;>
      cases UnsafetyNeeded.fromParams ps true <;> cases UnsafetyNeeded.fromParams ps false <;>
      simp [UnsafetyNeeded.wrapperToken]

/-- C18: a function is `unsafe` in the bridge exactly if it is for its callers or any parameter needs it. -/
theorem bridge_unsafe_iff (policy : UnsafePolicy) (ps : List ArgumentAnalysis) (kind : FnKind) :
    (shouldBeUnsafe policy ps kind).bridgeToken = true ↔
      (shouldBeUnsafe policy ps kind).wrapperToken = true ∨ ∃ p ∈ ps, p.requiresUnsafe ≠ .none := by
  have h1 := fromParams_none ps true
  have h2 := fromParams_none ps false
  have h3 : (∃ p ∈ ps, p.requiresUnsafe ≠ .none) ↔ UnsafetyNeeded.fromParams ps false ≠ .none := by
    rw [Ne, h2]; push Not; exact Iff.rfl
  have h4 : UnsafetyNeeded.fromParams ps true = .none ↔ UnsafetyNeeded.fromParams ps false = .none := by
    rw [h1, h2]
  rw [h3]
  cases kind with
  | traitMethod k i d =>
    cases k <;> simp only [shouldBeUnsafe] <;> cases UnsafetyNeeded.fromParams ps false <;>
      simp [UnsafetyNeeded.wrapperToken, UnsafetyNeeded.bridgeToken]
  | function =>
    simp only [shouldBeUnsafe]
    by_cases hp : policy = .allFunctionsUnsafe <;> simp only [hp, if_true, if_false] <;>
      revert h4 <;> cases UnsafetyNeeded.fromParams ps true <;> cases UnsafetyNeeded.fromParams ps false <;>
      simp [UnsafetyNeeded.wrapperToken, UnsafetyNeeded.bridgeToken]
  | method k i =>
    simp only [shouldBeUnsafe]
    by_cases hp : policy = .allFunctionsUnsafe <;> simp only [hp, if_true, if_false] <;>
      revert h4 <;> cases UnsafetyNeeded.fromParams ps true <;> cases UnsafetyNeeded.fromParams ps false <;>
      simp [UnsafetyNeeded.wrapperToken, UnsafetyNeeded.bridgeToken]

/-- A method taking a pointer, whose result is built in place. -/
example : shouldBeUnsafe .allFunctionsSafe
      [{ isPlacementReturnDestination := true, requiresUnsafe := .always },
       { selfType := some (⟨[], "A"⟩, .mutable), requiresUnsafe := .justBridge }] (.method .normal ⟨[], "A"⟩) =
        .justBridge ∧
    shouldBeUnsafe .allFunctionsSafe
      [{ selfType := some (⟨[], "A"⟩, .mutable) }, { requiresUnsafe := .always }] (.method .normal ⟨[], "A"⟩) =
        .always := by decide

end Verif
