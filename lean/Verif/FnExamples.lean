import Verif.FnDepProps

/-!
# Examples of functions, and what is wrong with some

Each function is analysed in the environment the pipeline makes for the same list of APIs: classes `Foo`, which is not
plain old data, and `Bar`, which is, and possibly `typedef const Foo &ConstRef`.
-/

set_option autoImplicit false
set_option synthInstance.maxSize 1024
set_option synthInstance.maxHeartbeats 200000

namespace Verif

def exFnApis (typedefs : Bool) : List PodApi :=
  [.struct ⟨⟨[], "Foo"⟩, none⟩ {} {}, .struct ⟨⟨[], "Bar"⟩, none⟩ {} { kind := .pod }] ++
  if typedefs then
    [.typedef ⟨⟨[], "ConstRef"⟩, none⟩ { ty := .ref false none (.path ["output", "Foo"] []) } none { target := .ref false none (.path ["output", "Foo"] []) }]
  else []

def exFnCfg (p : UnsafePolicy) : Config := { allowlist := .all, unsafePolicy := p, modName := some "ffi" }

/-- The analysis of one function, given the environment. -/
def exAnalysisIn (cpp : Option String) (f : FuncToConvert) : Option (FnEnv × FnState) → Option FnAnalysis
  | none => none
  | some (env, s) =>
    match analyzeForeignFn env s ⟨⟨[], f.ident⟩, cpp⟩ f .regular none with
    | .done (_, a, _) => some a
    | _ => none

/-- The analysis of one function. -/
def exAnalysis (p : UnsafePolicy) (typedefs : Bool) (cpp : Option String) (f : FuncToConvert) : Option FnAnalysis :=
  exAnalysisIn cpp f (FnEnv.ofApis 8 (fun _ => 0) p (exFnCfg p) false (exFnApis typedefs))

/-- The environment, taking the types which may be held by value from the literal database. -/
def exEnvLit (p : UnsafePolicy) (apis : List PodApi) : Option (FnEnv × FnState) :=
  let (conv, st) := ConvEnv.ofApis (fun a : TypedefAnalysis => some a.target) (exFnCfg p) apis
  podSafeLit.bind fun pods => moveitSafeLit.map fun sized =>
    ({ conv := conv
       fuel := 8
       hash := fun _ => 0
       policy := p
       podSafe := podSafeFound apis ++ pods.filterMap fun p => if p.2 then some p.1 else none
       moveitSafe := sizedFound apis ++ sized
       subclasses := subclassesBySuperclass apis
       nested := nestedNames apis
       generic := genericFound apis
       anonymous := anonymousFound apis
       forceWrappers := false }, { concretes := st })

theorem exAnalysis_lit (p : UnsafePolicy) (typedefs : Bool) (cpp : Option String) (f : FuncToConvert) :
    exAnalysis p typedefs cpp f = exAnalysisIn cpp f (exEnvLit p (exFnApis typedefs)) := by
  have e : moveitSafeTypes = moveitSafeLit := by
    unfold moveitSafeTypes moveitSafeLit knownGet; rw [knownTypes_eq_lit]
  rw [exAnalysis, FnEnv.ofApis, podSafeTypes_eq_lit, e, exEnvLit]

/-- What comes out of `exAnalysis` comes out of the analysis of a function, with a real environment. -/
theorem exAnalysis_real {p : UnsafePolicy} {typedefs : Bool} {cpp : Option String} {f : FuncToConvert} {a : FnAnalysis}
    (h : exAnalysis p typedefs cpp f = some a) : ∃ env s s' n, env.Real ∧
      FnEnv.ofApis 8 (fun _ => 0) p (exFnCfg p) false (exFnApis typedefs) = some (env, s) ∧
      analyzeForeignFn env s ⟨⟨[], f.ident⟩, cpp⟩ f .regular none = .done (s', a, n) := by
  rw [exAnalysis] at h
  revert h
  generalize he : FnEnv.ofApis 8 (fun _ => 0) p (exFnCfg p) false (exFnApis typedefs) = r
  intro h
  rw [exAnalysisIn.eq_def] at h
  split at h
  · cases h
  · rename_i env s
    split at h
    · rename_i s' a' n hr
      cases h
      exact ⟨env, s, s', n, ⟨_, _, _, _, _, _, _, he⟩, rfl, hr⟩
    · cases h

/-- Whether the analysis of a function panics, given the environment. -/
def exPanicsIn (cpp : Option String) (f : FuncToConvert) : Option (FnEnv × FnState) → Bool
  | none => false
  | some (env, s) =>
    match analyzeForeignFn env s ⟨⟨[], f.ident⟩, cpp⟩ f .regular none with
    | .panic => true
    | _ => false

def exPanics (p : UnsafePolicy) (typedefs : Bool) (cpp : Option String) (f : FuncToConvert) : Bool :=
  exPanicsIn cpp f (FnEnv.ofApis 8 (fun _ => 0) p (exFnCfg p) false (exFnApis typedefs))

theorem exPanics_lit (p : UnsafePolicy) (typedefs : Bool) (cpp : Option String) (f : FuncToConvert) :
    exPanics p typedefs cpp f = exPanicsIn cpp f (exEnvLit p (exFnApis typedefs)) := by
  have e : moveitSafeTypes = moveitSafeLit := by
    unfold moveitSafeTypes moveitSafeLit knownGet; rw [knownTypes_eq_lit]
  rw [exPanics, FnEnv.ofApis, podSafeTypes_eq_lit, e, exEnvLit]

theorem ofApis_conv {fuel : Nat} {hash : Config → Nat} {policy : UnsafePolicy} {cfg : Config} {force : Bool}
    {apis : List PodApi} {env : FnEnv} {s : FnState} (h : FnEnv.ofApis fuel hash policy cfg force apis = some (env, s)) :
    env.conv = (ConvEnv.ofApis (fun a : TypedefAnalysis => some a.target) cfg apis).1 ∧ env.policy = policy := by
  rw [FnEnv.ofApis] at h
  obtain ⟨_, _, h⟩ := Option.bind_eq_some_iff.1 h
  obtain ⟨_, _, h⟩ := Option.map_eq_some_iff.1 h
  cases h
  exact ⟨rfl, rfl⟩

def exFooTy : Ty := .path ["root", "Foo"] []
def exBarTy : Ty := .path ["root", "Bar"] []
def exConstRef (t : Ty) : Ty := .path ["__bindgen_marker_Reference"] [.ptr false t]
def exMutRef (t : Ty) : Ty := .path ["__bindgen_marker_Reference"] [.ptr true t]

/-- The types in the bridge. -/
def FnAnalysis.bridge (a : FnAnalysis) : List Ty × Option Ty := (a.params.map FnArg.type, a.retType)

def exFooOut : Ty := .path ["output", "Foo"] []
def exBarOut : Ty := .path ["output", "Bar"] []
def exPinOut : Ty := .path ["core", "pin", "Pin"] [.ref true none exFooOut]

/-! ### Functions which can be called -/

/-- `const Foo &pick(const Foo &a, Bar b)`. -/
def exPick : FuncToConvert :=
  { ident := "pick", inputs := [.typed "a" (exConstRef exFooTy), .typed "b" exBarTy], output := some (exConstRef exFooTy) }

/-- A function which returns a reference, without a wrapper: it borrows from the one reference it takes. This meets the
hypotheses of `reference_return_partial`. -/
theorem pick_witness : (exAnalysis .allFunctionsSafe false none exPick).map
      (fun a => (a.ignoreReason, a.kind, a.bridge, a.cppWrapper, a.requiresUnsafe)) =
    some (none, .function, ([.ref false none exFooOut, exBarOut], some (.ref false none exFooOut)), none, .none) := by
  rw [exAnalysis_lit]; decide_known

theorem exEnv_plain {p : UnsafePolicy} {env : FnEnv} {s : FnState} (hp : p ≠ .referencesWrappedAllFunctionsSafe)
    (h : FnEnv.ofApis 8 (fun _ => 0) p (exFnCfg p) false (exFnApis false) = some (env, s)) :
    env.PlainReferences ∧ NoReferenceTypedef env.conv := by
  have hc := (ofApis_conv h).1
  constructor
  · rw [FnEnv.PlainReferences, hc]; exact hp
  · rw [hc]; intro q mu lt e h'
    cases h'

/-- All the hypotheses of `reference_return_partial` and `copy_constructor_partial` are met, and what it says of `pick`. -/
example : ∃ env s s' a n t, env.Real ∧ env.PlainReferences ∧ NoReferenceTypedef env.conv ∧
    analyzeForeignFn env s ⟨⟨[], "pick"⟩, none⟩ exPick .regular none = .done (s', a, n) ∧ a.ignoreReason = none ∧
    a.retType = some t ∧ borrows t = true ∧ a.params.length = 2 ∧
    ((a.params.map FnArg.type).filter borrows).length = 1 := by
  obtain ⟨a, ha, e⟩ := Option.map_eq_some_iff.1 pick_witness
  obtain ⟨env, s, s', n, hr, he, h⟩ := exAnalysis_real ha
  obtain ⟨h1, h2⟩ := exEnv_plain (by decide) he
  simp only [FnAnalysis.bridge, Prod.mk.injEq] at e
  obtain ⟨e1, _, ⟨e2, e3⟩, _⟩ := e
  exact ⟨env, s, s', a, n, _, hr, h1, h2, h, e1, e3, rfl, by simpa using congrArg List.length e2,
    (reference_return_partial hr h1 h2 h e1 e3 rfl).1⟩

/-- `Foo make(Foo *p, Foo v)`: the value is handed over by pointer, and so is the place for the result, which comes last.
It must be called in an `unsafe` block because of the first parameter. -/
example : (exAnalysis .allFunctionsSafe false none
      { ident := "make", inputs := [.typed "p" (.ptr true exFooTy), .typed "v" exFooTy], output := some exFooTy }).map
      (fun a => (a.ignoreReason, a.bridge, a.paramDetails.map (·.conversion.cppConversion), a.requiresUnsafe,
        a.rustName, a.cxxbridgeName)) =
    some (none, ([.ptr true exFooOut, .ptr true exFooOut, .ptr true exFooOut], none),
      [.none, .fromPtrToValue, .ignoredPlacementPtrParameter], .always, "make", "make_autocxx_wrapper_0x0") := by
  rw [exAnalysis_lit]; decide_known

/-- Without the raw pointer, only the bridge is unsafe. -/
example : (exAnalysis .allFunctionsSafe false none
      { ident := "make", inputs := [.typed "v" exFooTy], output := some exFooTy }).map
      (fun a => (a.ignoreReason, a.requiresUnsafe)) = some (none, .justBridge) := by
  rw [exAnalysis_lit]; decide_known

/-- `Bar *first(Bar b)`. -/
def exFirst : FuncToConvert :=
  { ident := "first", inputs := [.typed "b" exBarTy], output := some (.ptr true exBarTy) }

/-- **C18**, **C69**: a function which gives back a raw pointer but takes none may be called without `unsafe`. -/
theorem returned_pointer_false : ¬ ∀ (env : FnEnv) (s s' : FnState) (name n : ApiName) (f : FuncToConvert)
    (soph : Sophistication) (pre : Option String) (a : FnAnalysis) (mu : Bool) (t : Ty), env.Real →
    analyzeForeignFn env s name f soph pre = .done (s', a, n) → a.ignoreReason = none →
    a.retType = some (.ptr mu t) → a.requiresUnsafe.wrapperToken = true := by
  have hw : (exAnalysis .allFunctionsSafe false none exFirst).map
      (fun a => (a.ignoreReason, a.retType, a.requiresUnsafe)) = some (none, some (.ptr true exBarOut), .none) := by
    rw [exAnalysis_lit]; decide_known
  obtain ⟨a, ha, e⟩ := Option.map_eq_some_iff.1 hw
  obtain ⟨env, s, s', n, hr, he, h⟩ := exAnalysis_real ha
  simp only [Prod.mk.injEq] at e
  obtain ⟨e1, e2, e3⟩ := e
  intro hall
  have := hall env s s' _ n _ _ _ a _ _ hr h e1 e2
  rw [e3] at this
  cases this

/-- `Bar Foo::get()`, overloaded in C++, so that bindgen calls it `get1`. -/
example : (exAnalysis .allFunctionsSafe false (some "get")
      { ident := "get1", inputs := [.typed "this" (.ptr true exFooTy)], output := some exBarTy,
        selfTy := some ⟨[], "Foo"⟩, virtualness := some .pureVirtual }).map
      (fun a => (a.ignoreReason, a.kind, a.bridge, a.rustName, a.calledName)) =
    some (none, .method (.pureVirtual .mutable) ⟨[], "Foo"⟩, ([exPinOut], some exBarOut), "get", some "get") := by
  rw [exAnalysis_lit]; decide_known

/-- `static Foo Foo::make(Bar x)` needs a wrapper. -/
example : (exAnalysis .allFunctionsSafe false none
      { ident := "make", inputs := [.typed "x" exBarTy], output := some exFooTy, selfTy := some ⟨[], "Foo"⟩ }).map
      (fun a => (a.ignoreReason, a.kind, a.cppWrapper.map (·.payload), a.deps)) =
    some (none, .method .static ⟨[], "Foo"⟩, some (.staticMethodCall [] "Foo" "make"), [⟨[], "Bar"⟩, ⟨[], "Foo"⟩]) := by
  rw [exAnalysis_lit]; decide_known

/-- `Foo(const Foo &)`. -/
def exCopy : FuncToConvert :=
  { ident := "Foo", selfTy := some ⟨[], "Foo"⟩, specialMember := some .copyConstructor,
    inputs := [.typed "this" (.ptr true exFooTy), .typed "b" (exConstRef exFooTy)] }

/-- A copy constructor is offered as such. -/
theorem copy_witness : (exAnalysis .allFunctionsSafe false none exCopy).map
      (fun a => (a.ignoreReason, a.kind, a.rustName, a.cppWrapper.map (·.payload))) =
    some (none, .traitMethod .copyConstructor ⟨[], "Foo"⟩ (copyMoveDetails ⟨[], "Foo"⟩ false), "new",
      some (.placementNew [] "Foo")) := by
  rw [exAnalysis_lit]; decide_known

/-- The destructor. -/
example : (exAnalysis .allFunctionsSafe false none
      { ident := "Foo_destructor", selfTy := some ⟨[], "Foo"⟩, specialMember := some .destructor,
        inputs := [.typed "this" (.ptr true exFooTy)] }).map
      (fun a => (a.ignoreReason, a.kind, a.cppWrapper.map (·.payload))) =
    some (none, .traitMethod .destructor ⟨[], "Foo"⟩ (dropDetails ⟨[], "Foo"⟩), some (.destructor [] "Foo")) := by
  rw [exAnalysis_lit]; decide_known

/-! ### Functions which can't be called -/

/-- Reasons why functions are not offered. -/
example : (exAnalysis .allFunctionsSafe false none { ident := "printf", variadic := true }).map (·.ignoreReason) =
    some (some ⟨.variadic, some (.item "printf")⟩) := by
  rw [exAnalysis_lit]; decide_known

example : (exAnalysis .allFunctionsSafe false none
      { ident := "get", inputs := [.typed "this" (.ptr true exFooTy)], selfTy := some ⟨[], "Foo"⟩, cppVis := .priv }).map
      (·.ignoreReason) = some (some ⟨.privateMethod, some (.method "Foo" "get")⟩) := by
  rw [exAnalysis_lit]; decide_known

example : (exAnalysis .allFunctionsSafe false none { exPick with inputs :=
      [.typed "a" (exConstRef exFooTy), .typed "b" (exConstRef exFooTy)] }).map (·.ignoreReason) =
    some (some ⟨.multipleInputReferences "pick", some (.item "pick")⟩) := by
  rw [exAnalysis_lit]; decide_known

/-! ### What is wrong -/

/-- C23 is false with a typedef: `const Foo &pick(const Foo &a, ConstRef b)` is offered although it takes two references,
because a reference which comes from a typedef is not counted. -/
theorem reference_typedef_false : ¬ ∀ (env : FnEnv) (s s' : FnState) (name n : ApiName) (f : FuncToConvert)
    (a : FnAnalysis) (t : Ty), env.Real → env.PlainReferences →
    analyzeForeignFn env s name f .regular none = .done (s', a, n) → a.ignoreReason = none → a.retType = some t →
    borrows t = true → ((a.params.map FnArg.type).filter borrows).length = 1 := by
  intro h
  have w : (exAnalysis .allFunctionsSafe true none { exPick with inputs :=
      [.typed "a" (exConstRef exFooTy), .typed "b" (.path ["root", "ConstRef"] [])] }).map
      (fun a => (a.ignoreReason, a.bridge)) =
    some (none, ([.ref false none exFooOut, .ref false none exFooOut], some (.ref false none exFooOut))) := by
    rw [exAnalysis_lit]; decide_known
  obtain ⟨a, ha, e⟩ := Option.map_eq_some_iff.1 w
  obtain ⟨env, s, s', n, hr, he, hrun⟩ := exAnalysis_real ha
  simp only [FnAnalysis.bridge, Prod.mk.injEq] at e
  obtain ⟨e1, e2, e3⟩ := e
  have := h env s s' _ n _ a _ hr (by rw [FnEnv.PlainReferences, (ofApis_conv he).1]; decide) hrun e1 e3 rfl
  rw [e2] at this
  revert this
  decide

/-- C63 is false: `void poke(Foo &a, const Foo &b)` takes a reference to `a` although references should be wrapped. -/
theorem mutable_parameter_false : ¬ ∀ (env : FnEnv) (s s' : FnState) (name n : ApiName) (f : FuncToConvert)
    (a : FnAnalysis), env.Real → env.WrapsReferences →
    analyzeForeignFn env s name f .regular none = .done (s', a, n) → a.ignoreReason = none → ¬ a.kind.OfTrait →
    ∀ t ∈ a.params.map FnArg.type, borrows t = false := by
  intro h
  have w : (exAnalysis .referencesWrappedAllFunctionsSafe false none
      { ident := "poke", inputs := [.typed "a" (exMutRef exFooTy), .typed "b" (exConstRef exFooTy)] }).map
      (fun a => (a.ignoreReason, a.kind, a.bridge)) =
    some (none, .function, ([exPinOut, .ptr false exFooOut], none)) := by
    rw [exAnalysis_lit]; decide_known
  obtain ⟨a, ha, e⟩ := Option.map_eq_some_iff.1 w
  obtain ⟨env, s, s', n, hr, he, hrun⟩ := exAnalysis_real ha
  simp only [FnAnalysis.bridge, Prod.mk.injEq] at e
  obtain ⟨e1, e2, e3, _⟩ := e
  have := h env s s' _ n _ a hr (by rw [FnEnv.WrapsReferences, (ofApis_conv he).1]; rfl) hrun e1
    (by rw [e2]; exact id) exPinOut (by rw [e3]; exact List.mem_cons_self ..)
  cases this

/-- C64 is false where references are wrapped: the copy constructor is offered as one more ordinary constructor. -/
theorem copy_wrapped_false : ¬ ∀ (env : FnEnv) (s s' : FnState) (name n : ApiName) (f : FuncToConvert)
    (a : FnAnalysis), env.Real → analyzeForeignFn env s name f .regular none = .done (s', a, n) →
    a.ignoreReason = none → f.specialMember = some .copyConstructor → f.addToTrait = none →
    ∃ q d, a.kind = .traitMethod .copyConstructor q d := by
  intro h
  have w : (exAnalysis .referencesWrappedAllFunctionsSafe false none exCopy).map (fun a => (a.ignoreReason, a.kind)) =
    some (none, .method (.constructor false) ⟨[], "Foo"⟩) := by
    rw [exAnalysis_lit]; decide_known
  obtain ⟨a, ha, e⟩ := Option.map_eq_some_iff.1 w
  obtain ⟨env, s, s', n, hr, he, hrun⟩ := exAnalysis_real ha
  simp only [Prod.mk.injEq] at e
  obtain ⟨q, d, hk⟩ := h env s s' _ n _ a hr hrun e.1 rfl rfl
  rw [e.2] at hk
  cases hk

/-- C64 is false of a method whose name is that of its class and a number, such as `void Foo::Foo1()`: it is offered as a
constructor, so that the binding makes an object instead of calling it. -/
theorem numbered_method_false : ¬ ∀ (env : FnEnv) (s s' : FnState) (name n : ApiName) (f : FuncToConvert)
    (a : FnAnalysis), env.Real → analyzeForeignFn env s name f .regular none = .done (s', a, n) →
    a.ignoreReason = none → f.specialMember = none → name.name.name ≠ "Foo" →
    ∀ q d, a.kind ≠ .method (.constructor d) q := by
  intro h
  have w : (exAnalysis .allFunctionsSafe false none
      { ident := "Foo1", selfTy := some ⟨[], "Foo"⟩, inputs := [.typed "this" (.ptr true exFooTy)] }).map
      (fun a => (a.ignoreReason, a.kind)) = some (none, .method (.constructor false) ⟨[], "Foo"⟩) := by
    rw [exAnalysis_lit]; decide_known
  obtain ⟨a, ha, e⟩ := Option.map_eq_some_iff.1 w
  obtain ⟨env, s, s', n, hr, he, hrun⟩ := exAnalysis_real ha
  simp only [Prod.mk.injEq] at e
  exact h env s s' _ n _ a hr hrun e.1 rfl (by decide : (("Foo1" : String) ≠ "Foo")) _ _ e.2

/-- A static method of that name which takes nothing makes the analysis panic. -/
theorem numbered_static_panics : exPanics .allFunctionsSafe false none
    { ident := "Foo1", selfTy := some ⟨[], "Foo"⟩ } = true := by
  rw [exPanics_lit]; decide_known

/-- A string slice is handed over as a thin pointer where references are wrapped; but a slice is a fat pointer. -/
theorem slice_wrapped_witness : (exAnalysis .referencesWrappedAllFunctionsSafe false none
      { ident := "say", inputs := [.typed "a" (.path ["root", "str"] [])] }).map (fun a => (a.ignoreReason, a.bridge)) =
    some (none, ([.ptr false (.path ["str"] [])], none)) := by
  rw [exAnalysis_lit]; decide_known

end Verif
