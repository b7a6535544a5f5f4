import Verif.FnAnalyze
import Verif.Passes

/-!
# The pass over all functions

engine/src/conversion/analysis/fun/mod.rs:304-701,2039-2196 and engine/src/conversion/analysis/fun/subclass.rs: the
analysis of every function, with what is made for subclasses and the special members C++ provides by itself.
-/

set_option autoImplicit false

namespace Verif

/-! ## Subclasses -/

/-- `create_subclass_fn_wrapper`: engine/src/conversion/analysis/fun/subclass.rs:53-77. -/
def superFnWrapper (sub : ApiName) (superFn : QName) (f : FuncToConvert) : FuncToConvert :=
  { provenance := .synthesizedOther
    ident := superFn.name
    inputs := f.inputs
    variadic := f.variadic
    output := f.output
    cppVis := .pub
    selfTy := some sub.cppPeer
    synthesizedThisType := some sub.cppPeer
    addToTrait := f.addToTrait
    isDeleted := f.isDeleted }

/-- How unsafe what is made for a subclass is:
engine/src/conversion/analysis/fun/subclass.rs:92-96,144-148. -/
def subclassUnsafety (policy : UnsafePolicy) (a : FnAnalysis) : UnsafetyNeeded :=
  if policy = .allFunctionsUnsafe then .always else UnsafetyNeeded.fromParams a.paramDetails false

/-- `create_subclass_trait_item`: engine/src/conversion/analysis/fun/subclass.rs:79-110. -/
def subclassTraitItem (policy : UnsafePolicy) (name : QName) (a : FnAnalysis) (recv : ReceiverMutability)
    (receiver : QName) (isPure : Bool) : FnPre1Api :=
  .subclassTraitItem (ApiName.ofQName name)
    { name := a.rustName
      receiver := receiver
      params := a.params
      paramNames := a.paramDetails.map (·.name)
      retType := a.retType
      receiverMutability := recv
      requiresUnsafe := subclassUnsafety policy a
      isPureVirtual := isPure }

/-- Whether this is a pure virtual method: engine/src/conversion/analysis/fun/subclass.rs:173-179. -/
def FnKind.isPure : FnKind → Bool
  | .method (.pureVirtual _) _ => true
  | _ => false

/-- The name of the Rust function a C++ override calls: engine/src/conversion/analysis/fun/subclass.rs:123-127. -/
def rustCallName (sub name : ApiName) : Ident := sub.name.name ++ "_" ++ name.name.name

/-- `create_subclass_function`: engine/src/conversion/analysis/fun/subclass.rs:112-182. -/
def subclassFunction (policy : UnsafePolicy) (sub : ApiName) (a : FnAnalysis) (name : ApiName)
    (recv : ReceiverMutability) (sup : QName) (deps : List QName) : FnPre1Api :=
  .rustSubclassFn (ApiName.ofQName ⟨[], rustCallName sub name⟩) sub
    { params := .typed "me" (.ref false none (.path [sub.holder] [])) :: a.params.drop 1
      ret := a.retType
      cppImpl :=
        { payload := .functionCall [] (rustCallName sub name)
          wrapperFunctionName := a.rustName
          originalCppName := name.effectiveCppName
          returnConversion := a.retConversion
          argumentConversion := (a.paramDetails.drop 1).map (·.conversion)
          kind := if recv = .mutable then .method else .constMethod
          passObsField := true
          qualification := some sub.cppPeer }
      methodName := a.rustName
      superclass := sup
      receiverMutability := recv
      dependencies := deps
      requiresUnsafe := subclassUnsafety policy a
      isPureVirtual := a.kind.isPure }

/-- `Box` of the Rust side of a subclass: engine/src/conversion/analysis/fun/subclass.rs:193-195. -/
def boxedHolder (sub : ApiName) : Ty := .path ["rust", "Box"] [.path [sub.holder] []]

/-- The C++ constructor of a subclass: engine/src/conversion/analysis/fun/subclass.rs:193-214. -/
def subclassCtorCpp (sub : ApiName) (a : FnAnalysis) (sup : QName) : CppFunction :=
  { payload := .constructSuperclass sup.toCppName
    wrapperFunctionName := sub.cppPeer.name
    originalCppName := sub.cppPeer.toCppName
    returnConversion := none
    argumentConversion := .newUnconverted (boxedHolder sub) :: (a.paramDetails.drop 1).map (·.conversion)
    kind := .synthesizedConstructor
    passObsField := false
    qualification := some sub.cppPeer }

/-- The parameters of a subclass constructor: engine/src/conversion/analysis/fun/subclass.rs:223-244. `none` is a
panic. -/
def subclassCtorInputs (sub : ApiName) : List FnArg → Option (List FnArg)
  | .typed n (.ptr mu _) :: l =>
    some (.typed n (.ptr mu (.path sub.cppPeer.toTypePath [])) :: .typed "peer" (boxedHolder sub) :: l)
  | _ => none

/-- `create_subclass_constructor`: engine/src/conversion/analysis/fun/subclass.rs:184-269. `none` is a panic. -/
def subclassConstructor (sub : ApiName) (a : FnAnalysis) (sup : QName) (f : FuncToConvert) :
    Option (FuncToConvert × ApiName) :=
  (subclassCtorInputs sub f.inputs).map fun inputs =>
    ({ provenance := .synthesizedSubclassConstructor sub (a.paramDetails.length = 1) (subclassCtorCpp sub a sup)
       ident := sub.cppPeer.name ++ "_" ++ sub.cppPeer.name
       inputs := inputs
       variadic := f.variadic
       output := f.output
       cppVis := .pub
       specialMember := f.specialMember
       selfTy := some sub.cppPeer
       synthesizedThisType := some sub.cppPeer
       isDeleted := f.isDeleted },
     ⟨⟨[], sub.cppPeer.name ++ "_" ++ sub.cppPeer.name⟩, some sub.cppPeer.name⟩)

/-! ## One function -/

/-- `analyze_and_add`: engine/src/conversion/analysis/fun/mod.rs:687-701. -/
def analyzeAndAdd {T S : Type} (env : FnEnv) (s : FnState) (name : ApiName) (f : FuncToConvert)
    (results : ApiVec T S FnAnalysis) (soph : Sophistication) :
    PassRun (FnState × ApiVec T S FnAnalysis × QName) :=
  (analyzeForeignFn env s name f soph none).bind fun (s, a, n) =>
    .done (s, results.push (.function n f a), n.name)

/-- What is made for one subclass of the class of a virtual method:
engine/src/conversion/analysis/fun/mod.rs:605-673. `a` is the analysis of the method, with the name `n` it was given,
and `simple` the second analysis. -/
def forSubclass (env : FnEnv) (f : FuncToConvert) (a simple : FnAnalysis) (n : ApiName) (recv : ReceiverMutability)
    (sup : QName) (sub : ApiName) (s : FnState) (results : ApiVec TypedefAnalysis PodAnalysis FnAnalysis) :
    PassRun (FnState × ApiVec TypedefAnalysis PodAnalysis FnAnalysis) :=
  let traitName := traitApiName sup a.rustName
  (if simple.kind.isPure then .done (s, results, [traitName])
   else
    (analyzeAndAdd env s (ApiName.ofQName (superFnName [] a.cxxbridgeName))
        (superFnWrapper sub (superFnName [] a.rustName) f) results .simpleForSubclasses).bind
      fun (s, results, q) => .done (s, results, [traitName, q])).bind fun (s, results, deps) =>
  let results := results.push (subclassFunction env.policy sub simple n recv sup deps)
  if traitName ∈ s.traitNames then .done (s, results)
  else
    .done ({ s with traitNames := s.traitNames ++ [traitName] },
      results.push (subclassTraitItem env.policy traitName simple recv sup simple.kind.isPure))

/-- The loop over the subclasses: engine/src/conversion/analysis/fun/mod.rs:605-673. -/
def forSubclasses (env : FnEnv) (f : FuncToConvert) (a simple : FnAnalysis) (n : ApiName) (recv : ReceiverMutability)
    (sup : QName) : List ApiName → FnState → ApiVec TypedefAnalysis PodAnalysis FnAnalysis →
    PassRun (FnState × ApiVec TypedefAnalysis PodAnalysis FnAnalysis)
  | [], s, results => .done (s, results)
  | sub :: l, s, results =>
    (forSubclass env f a simple n recv sup sub s results).bind fun (s, results) =>
      forSubclasses env f a simple n recv sup l s results

/-- The class and the mutability of a virtual method: engine/src/conversion/analysis/fun/mod.rs:592-597. -/
def FnKind.virtualOf : FnKind → Option (QName × ReceiverMutability)
  | .method (.virtual r) q | .method (.pureVirtual r) q => some (q, r)
  | _ => none

/-- `analyze_foreign_fn_and_subclasses`: engine/src/conversion/analysis/fun/mod.rs:582-683. It never gives an error
of its own. -/
def analyzeFnAndSubclasses (env : FnEnv) (s : FnState) (name : ApiName) (f : FuncToConvert) :
    PassRun (FnState × List FnPre1Api) :=
  (analyzeForeignFn env s name f .regular none).bind fun (s, a, n) =>
    match a.kind.virtualOf with
    | none => .done (s, [.function n f a])
    | some (sup, recv) =>
      (analyzeForeignFn env s n f .simpleForSubclasses (some a.rustName)).bind fun (s, simple, _) =>
        (forSubclasses env f a simple n recv sup ((AMap.get? env.subclasses sup).getD []) s {}).bind
          fun (s, results) => .done (s, (results.push (.function n f a)).apis)

/-- The closures given to `convert_apis` in `analyze_functions`: engine/src/conversion/analysis/fun/mod.rs:328-335. -/
def fnStep (env : FnEnv) (s : FnState) : PodApi → PassRun (FnState × List FnPre1Api)
  | .function n f _ => analyzeFnAndSubclasses env s n f
  | .struct n d a => .done (s, [.struct n d a])
  | .enum n i => .done (s, [.enum n i])
  | .typedef n i o a => .done (s, [.typedef n i o a])
  | .concreteType n r d => .done (s, [.concreteType n r d])
  | .forwardDeclaration n e => .done (s, [.forwardDeclaration n e])
  | .opaqueTypedef n f => .done (s, [.opaqueTypedef n f])
  | .stringConstructor n => .done (s, [.stringConstructor n])
  | .const n i => .done (s, [.const n i])
  | .ctype n t => .done (s, [.ctype n t])
  | .rustType n p => .done (s, [.rustType n p])
  | .rustFn n d => .done (s, [.rustFn n d])
  | .rustSubclassFn n sub d => .done (s, [.rustSubclassFn n sub d])
  | .subclass n sup => .done (s, [.subclass n sup])
  | .ignoredItem n e c => .done (s, [.ignoredItem n e c])
  | .subclassTraitItem n d => .done (s, [.subclassTraitItem n d])
  | .externCppType n p o => .done (s, [.externCppType n p o])

/-- The loop of `convert_apis`, none of whose closures gives an error here:
engine/src/conversion/analysis/fun/mod.rs:327-335. -/
def fnSteps (env : FnEnv) : FnState → List PodApi → PassRun (FnState × List FnPre1Api)
  | s, [] => .done (s, [])
  | s, a :: l => (fnStep env s a).bind fun (s, r) => (fnSteps env s l).bind fun (s, r') => .done (s, r ++ r')

/-! ## Special members C++ provides by itself -/

/-- The label in the name of a synthesized member: engine/src/conversion/analysis/fun/mod.rs:2067-2102. -/
def specialLabel : SpecialMemberKind → String
  | .defaultConstructor => "default_ctor"
  | .moveConstructor => "move_ctor"
  | .copyConstructor => "const_copy_ctor"
  | .destructor => "destructor"
  | .assignmentOperator => "assignment_operator"

/-- The parameters of a synthesized member: engine/src/conversion/analysis/fun/mod.rs:2067-2102. -/
def specialInputs (ty : QName) : SpecialMemberKind → List FnArg
  | .moveConstructor =>
    [.typed "this" (.ptr true (.path ty.toTypePath [])),
     .typed "other" (.path ["__bindgen_marker_RValueReference"] [.ptr true (.path ty.toTypePath [])])]
  | .copyConstructor =>
    [.typed "this" (.ptr true (.path ty.toTypePath [])),
     .typed "other" (.path ["__bindgen_marker_Reference"] [.ptr false (.path ty.toTypePath [])])]
  | _ => [.typed "this" (.ptr true (.path ty.toTypePath []))]

/-- The name of a synthesized member: engine/src/conversion/analysis/fun/mod.rs:2142-2159. -/
def specialName (env : FnEnv) (q : QName) (k : SpecialMemberKind) : ApiName :=
  ⟨⟨q.ns, uniquify env (q.name ++ "_synthetic_" ++ specialLabel k)⟩,
    if k = .defaultConstructor then some ((AMap.get? env.nested q).getD q.name) else none⟩

/-- The function synthesized: engine/src/conversion/analysis/fun/mod.rs:2166-2188. `key` is the class the parameters
name and `q` the class found under it. -/
def specialFn (env : FnEnv) (key q : QName) (k : SpecialMemberKind) : FuncToConvert :=
  { provenance := .synthesizedOther
    ident := (specialName env q k).name.name
    inputs := specialInputs key k
    selfTy := some q
    cppVis := .pub
    specialMember := some k }

/-- `synthesize_special_member`: engine/src/conversion/analysis/fun/mod.rs:2133-2195. -/
def synthesizeMember (env : FnEnv) (s : FnState) (apis : ApiVec TypedefAnalysis PodAnalysis FnAnalysis) (key : QName)
    (i : ItemsFound) (k : SpecialMemberKind) :
    PassRun (FnState × ApiVec TypedefAnalysis PodAnalysis FnAnalysis) :=
  match i.name with
  | none => .panic
  | some n =>
    (analyzeFnAndSubclasses env s (specialName env n.name k) (specialFn env key n.name k)).bind fun (s, r) =>
      .done (s, apis.extend r)

/-- The members of one class: engine/src/conversion/analysis/fun/mod.rs:2067-2102. -/
def synthesizeMembers (env : FnEnv) (key : QName) (i : ItemsFound) :
    FnState → ApiVec TypedefAnalysis PodAnalysis FnAnalysis → List SpecialMemberKind →
    PassRun (FnState × ApiVec TypedefAnalysis PodAnalysis FnAnalysis)
  | s, apis, [] => .done (s, apis)
  | s, apis, k :: l =>
    (synthesizeMember env s apis key i k).bind fun (s, apis) => synthesizeMembers env key i s apis l

/-- The loop over the classes: engine/src/conversion/analysis/fun/mod.rs:2053-2103. -/
def synthesizeAll (env : FnEnv) : FnState → ApiVec TypedefAnalysis PodAnalysis FnAnalysis →
    List (QName × ItemsFound) → PassRun (FnState × ApiVec TypedefAnalysis PodAnalysis FnAnalysis)
  | s, apis, [] => .done (s, apis)
  | s, apis, (key, i) :: l =>
    (if env.conv.cfg.excludeImpls || env.conv.cfg.isOnConstructorBlocklist key.toCppName then .done (s, apis)
     else synthesizeMembers env key i s apis (membersNeeded i)).bind fun (s, apis) => synthesizeAll env s apis l

/-- The second half of `add_constructors_present`: engine/src/conversion/analysis/fun/mod.rs:2106-2129. -/
def withConstructors (found : AMap QName ItemsFound) : FnPre1Api → FnPre2Api
  | .struct n d a =>
    .struct n d
      { pod := a
        constructors := match AMap.get? found n.name with
          | some i => publicConstructors i
          | none => {} }
  | .function n f a => .function n f a
  | .enum n i => .enum n i
  | .typedef n i o a => .typedef n i o a
  | .concreteType n r d => .concreteType n r d
  | .forwardDeclaration n e => .forwardDeclaration n e
  | .opaqueTypedef n f => .opaqueTypedef n f
  | .stringConstructor n => .stringConstructor n
  | .const n i => .const n i
  | .ctype n t => .ctype n t
  | .rustType n p => .rustType n p
  | .rustFn n d => .rustFn n d
  | .rustSubclassFn n sub d => .rustSubclassFn n sub d
  | .subclass n sup => .subclass n sup
  | .ignoredItem n e c => .ignoredItem n e c
  | .subclassTraitItem n d => .subclassTraitItem n d
  | .externCppType n p o => .externCppType n p o

/-- `add_constructors_present`: engine/src/conversion/analysis/fun/mod.rs:2051-2130. -/
def addConstructorsPresent (env : FnEnv) (s : FnState) (apis : ApiVec TypedefAnalysis PodAnalysis FnAnalysis) :
    PassRun (FnState × ApiVec TypedefAnalysis PodAndConstructorAnalysis FnAnalysis) :=
  match findConstructorsPresent apis.apis with
  | none => .panic
  | some found =>
    (synthesizeAll env s apis found).bind fun (s, apis) =>
      .done (s, ApiVec.fromIter (apis.apis.map (withConstructors found)))

/-! ## Constructors of subclasses -/

/-- The classes with a destructor everyone can call: engine/src/conversion/analysis/fun/mod.rs:510-536. -/
def typesWithDestructors (apis : List FnPre2Api) : List QName := apis.filterMap fun a => match a with
  | .function _ f an =>
    match an.kind with
    | .traitMethod _ q _ =>
      if f.specialMember = some .destructor ∧ f.isDeleted ≠ some .deleted ∧ f.cppVis = .pub then some q else none
    | _ => none
  | _ => none

/-- The constructors of the subclasses which follow from one constructor:
engine/src/conversion/analysis/fun/mod.rs:560-571. -/
def subclassCtors (env : FnEnv) (f : FuncToConvert) (a : FnAnalysis) (sup : QName) :
    List ApiName → FnState → ApiVec TypedefAnalysis PodAndConstructorAnalysis FnAnalysis →
    PassRun (FnState × ApiVec TypedefAnalysis PodAndConstructorAnalysis FnAnalysis)
  | [], s, results => .done (s, results)
  | sub :: l, s, results =>
    match subclassConstructor sub a sup f with
    | none => .panic
    | some (g, n) =>
      (analyzeAndAdd env s n g results .regular).bind fun (s, results, _) => subclassCtors env f a sup l s results

/-- The class a constructor makes: engine/src/conversion/analysis/fun/mod.rs:539-552. -/
def FnKind.constructorOf : FnKind → Option QName
  | .method (.constructor _) q => some q
  | _ => none

/-- The loop of `add_subclass_constructors`: engine/src/conversion/analysis/fun/mod.rs:538-573. -/
def subclassCtorsOf (env : FnEnv) (destructors : List QName) :
    List FnPre2Api → FnState → ApiVec TypedefAnalysis PodAndConstructorAnalysis FnAnalysis →
    PassRun (FnState × ApiVec TypedefAnalysis PodAndConstructorAnalysis FnAnalysis)
  | [], s, results => .done (s, results)
  | .function _ f a :: l, s, results =>
    (match a.kind.constructorOf with
      | some sup =>
        if sup ∈ destructors then subclassCtors env f a sup ((AMap.get? env.subclasses sup).getD []) s results
        else .done (s, results)
      | none => .done (s, results)).bind fun (s, results) => subclassCtorsOf env destructors l s results
  | _ :: l, s, results => subclassCtorsOf env destructors l s results

/-- `add_subclass_constructors`: engine/src/conversion/analysis/fun/mod.rs:505-575. -/
def addSubclassConstructors (env : FnEnv) (s : FnState)
    (apis : ApiVec TypedefAnalysis PodAndConstructorAnalysis FnAnalysis) :
    PassRun (FnState × ApiVec TypedefAnalysis PodAndConstructorAnalysis FnAnalysis) :=
  (subclassCtorsOf env (typesWithDestructors apis.apis) apis.apis s {}).bind fun (s, r) =>
    .done (s, apis.extend r.apis)

/-- `analyze_functions`: engine/src/conversion/analysis/fun/mod.rs:305-340. -/
def analyzeFunctions (fuel : Nat) (hash : Config → Nat) (policy : UnsafePolicy) (cfg : Config) (force : Bool)
    (apis : ApiVec TypedefAnalysis PodAnalysis Unit) :
    PassRun (ApiVec TypedefAnalysis PodAndConstructorAnalysis FnAnalysis) :=
  match FnEnv.ofApis fuel hash policy cfg force apis.apis with
  | none => .panic
  | some (env, s) =>
    (fnSteps env s apis.apis).bind fun (s, l) =>
      (addConstructorsPresent env s (ApiVec.fromIter l)).bind fun (s, apis) =>
        (addSubclassConstructors env s apis).bind fun (s, apis) =>
          (addAnalyses s.extra.apis).bind fun e => .done (apis.extend e)

end Verif
