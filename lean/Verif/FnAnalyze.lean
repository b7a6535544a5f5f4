import Verif.Policy
import Verif.Trackers
import Verif.Implicit

/-!
# Analysis of functions

engine/src/conversion/analysis/fun/mod.rs and engine/src/conversion/analysis/fun/subclass.rs: how each function is
named, how its arguments and result are converted, and whether it needs wrappers.
-/

set_option autoImplicit false

namespace Verif

/-! ## The analyser -/

/-- The fields of `FnAnalyzer` which do not change: engine/src/conversion/analysis/fun/mod.rs:287-302. The type
converter's are in `conv` (with the configuration). `hash` stands for the hash of the configuration. -/
structure FnEnv where
  conv : ConvEnv
  fuel : Nat
  hash : Config → Nat
  policy : UnsafePolicy
  podSafe : List QName
  moveitSafe : List QName
  subclasses : AMap QName (List ApiName)
  nested : AMap QName String
  generic : List QName
  anonymous : List QName
  forceWrappers : Bool

/-- The fields of `FnAnalyzer` which change: engine/src/conversion/analysis/fun/mod.rs:287-302. -/
structure FnState where
  concretes : Concretes
  extra : ApiVec Unit Unit Unit := {}
  bridge : BridgeNameTracker := []
  overloads : AMap (List String) OverloadTracker := []
  traitNames : List QName := []

/-- `build_pod_safe_type_set`, the types found: engine/src/conversion/analysis/fun/mod.rs:343-356. -/
def podSafeFound (apis : List PodApi) : List QName := apis.filterMap fun a => match a with
  | .struct n _ an => if an.kind = .pod then some n.name else none
  | .enum n _ => some n.name
  | .externCppType n pod _ => if pod then some n.name else none
  | _ => none

/-- `build_correctly_sized_type_set`, the types found: engine/src/conversion/analysis/fun/mod.rs:376-388. -/
def sizedFound (apis : List PodApi) : List QName := apis.filterMap fun a => match a with
  | .struct n _ _ => some n.name
  | .enum n _ => some n.name
  | .externCppType n _ isOpaque => if isOpaque then none else some n.name
  | _ => none

/-- `build_generic_type_set`: engine/src/conversion/analysis/fun/mod.rs:393-403. -/
def genericFound (apis : List PodApi) : List QName := apis.filterMap fun a => match a with
  | .struct n _ an => if an.numGenerics > 0 then some n.name else none
  | _ => none

/-- `build_types_in_anonymous_namespace`: engine/src/conversion/analysis/fun/mod.rs:405-419. -/
def anonymousFound (apis : List PodApi) : List QName := apis.filterMap fun a => match a with
  | .struct n _ an => if an.inAnonymousNamespace then some n.name else none
  | _ => none

/-- `build_nested_type_map`: engine/src/conversion/analysis/fun/mod.rs:423-433. -/
def nestedNames (apis : List PodApi) : AMap QName String :=
  apis.foldl (init := []) fun m a => match a with
    | .struct n _ _ | .enum n _ =>
      match finalSegment n.effectiveCppName with
      | some x => AMap.insert m n.name x
      | none => m
    | _ => m

/-- `subclasses_by_superclass`: engine/src/conversion/analysis/fun/subclass.rs:37-51. -/
def subclassesBySuperclass (apis : List PodApi) : AMap QName (List ApiName) :=
  apis.foldl (init := []) fun m a => match a with
    | .subclass n sup => AMap.insert m sup (((AMap.get? m sup).getD []) ++ [n])
    | _ => m

/-- `FnAnalyzer` at the start of `analyze_functions`: engine/src/conversion/analysis/fun/mod.rs:311-326. `none` is a
panic. -/
def FnEnv.ofApis (fuel : Nat) (hash : Config → Nat) (policy : UnsafePolicy) (cfg : Config) (force : Bool)
    (apis : List PodApi) : Option (FnEnv × FnState) :=
  let (conv, st) := ConvEnv.ofApis (fun a : TypedefAnalysis => some a.target) cfg apis
  podSafeTypes.bind fun pods => moveitSafeTypes.map fun sized =>
    ({ conv := conv
       fuel := fuel
       hash := hash
       policy := policy
       podSafe := podSafeFound apis ++ pods.filterMap fun p => if p.2 then some p.1 else none
       moveitSafe := sizedFound apis ++ sized
       subclasses := subclassesBySuperclass apis
       nested := nestedNames apis
       generic := genericFound apis
       anonymous := anonymousFound apis
       forceWrappers := force }, { concretes := st })

/-- `make_ident` (engine/src/types.rs:33-36) panics for what is not an identifier. -/
def mkIdent (s : String) : PassRun Ident := if isIdentText s then .done s else .panic

/-- `uniquify_name_per_mod`: parser/src/config.rs:409-411. -/
def uniquify (env : FnEnv) (n : String) : String :=
  n ++ "_" ++ "0x" ++ String.ofList (Nat.toDigits 16 (env.hash env.conv.cfg))

/-- `convert_boxed_type`: engine/src/conversion/analysis/fun/mod.rs:435-444. -/
def convertBoxed (env : FnEnv) (s : FnState) (ns : List String) (ty : Ty) :
    PassRun (FnState × Except Err (Annotated Ty)) :=
  match convertType env.conv ns env.fuel .outerType s.concretes ty with
  | (st, r) => r.toRun.bind fun r =>
    match r with
    | .error e => .done ({ s with concretes := st }, .error e)
    | .ok a => .done ({ s with concretes := st, extra := s.extra.extend a.extra }, .ok a)

/-! ## Arguments -/

/-- `TypeConversionSophistication`: engine/src/conversion/analysis/fun/mod.rs:282-285. -/
inductive Sophistication where
  | regular | simpleForSubclasses
deriving DecidableEq, Repr

/-- The way `convert_fn_arg` is to treat an argument: the parameters of
engine/src/conversion/analysis/fun/mod.rs:1656-1661. -/
structure ArgMode where
  virtualThis : Option QName := none
  thisAsReference : Bool := true
  isMove : Bool := false
  force : Option RustConversionType := none
  soph : Sophistication := .regular
  intoSelf : Bool := false

/-- The type of a parameter called `this`: engine/src/conversion/analysis/fun/mod.rs:1671-1711. Gives the class, the
mutability and the type of the parameter. -/
def thisType (virtualThis : Option QName) (diag : QName) :
    Ty → PassRun (Except Err ((QName × ReceiverMutability) × Ty))
  | .ptr mu (.path segs args) =>
    let recv := if mu then ReceiverMutability.mutable else .const
    match virtualThis with
    | some v => .done (.ok ((v, recv), .ptr mu (.path v.toTypePath [])))
    | none =>
      match QName.ofTypePath (match unwrapMarker "__bindgen_marker_Opaque" segs args with
          | some (.path s _) => s
          | _ => segs) with
      | none => .panic
      | some q => .done (.ok ((q, recv), .ptr mu (.path segs args)))
  | _ => .done (.error (.unexpectedThisType diag))

/-- `extract_type_from_pinned_mut_ref`: engine/src/conversion/analysis/fun/mod.rs:2301-2319. `none` are its panics. -/
def pinContents : List Ty → Option Ty
  | .ref _ _ e :: _ => some e
  | _ => none

/-- `argument_conversion_details` for a path: engine/src/conversion/analysis/fun/mod.rs:1832-1882. `none` is a
panic. -/
def pathConversion (env : FnEnv) (soph : Sophistication) (isReference forced : Bool) (segs : List String)
    (args : List Ty) : Option TypeConversionPolicy :=
  match QName.ofTypePath segs with
  | none => none
  | some tn =>
    if env.conv.cfg.unsafePolicy = .referencesWrappedAllFunctionsSafe ∧ isReference = true ∧ forced = false then
      (pinContents args).map fun e => ⟨.ptr true e, .fromPointerToReference, .fromReferenceWrapperToPointer⟩
    else if tn ∈ env.podSafe then
      if lacksCopyConstructor tn then some ⟨.path segs args, .move, .none⟩
      else some (.newUnconverted (.path segs args))
    else if convertibleFromStrs tn = true ∧ env.conv.cfg.excludeUtilities = false then
      some ⟨.path segs args, .fromUniquePtrToValue, .fromStr⟩
    else if soph = .simpleForSubclasses then some ⟨.path segs args, .fromUniquePtrToValue, .none⟩
    else some ⟨.path segs args, .fromPtrToValue, .fromValueParamToPtr⟩

/-- `argument_conversion_details`: engine/src/conversion/analysis/fun/mod.rs:1787-1937. `none` is a panic. -/
def argConversion (env : FnEnv) (m : ArgMode) (a : Annotated Ty) (isSelf isPlacement : Bool) :
    Option TypeConversionPolicy :=
  let wrapRefs := env.conv.cfg.unsafePolicy = .referencesWrappedAllFunctionsSafe
  let isReference := a.kind = .reference ∨ isSelf = true
  match a.kind with
  | .subclassHolder holder =>
    (subclassFromHolder holder).map fun sub =>
      ⟨.path ["rust", "Box"] [.path [holder] []], .move, .toBoxedUpHolder sub⟩
  | _ =>
    if m.force = some .fromPlacementParamToNewReturn ∧ m.soph = .regular then
      some ⟨a.ty, .ignoredPlacementPtrParameter, .fromPlacementParamToNewReturn⟩
    else
      match a.ty with
      | .path segs args => pathConversion env m.soph isReference m.force.isSome segs args
      | .ptr mu e =>
        if m.isMove then some ⟨.ptr mu e, .fromPtrToMove, m.force.getD .none⟩
        else if a.kind = .rvalueReference then some ⟨e, .fromPtrToValue, .fromRValueParamToPtr⟩
        else if wrapRefs ∧ isReference ∧ m.force = none ∧ isPlacement = false then
          some ⟨.ptr mu e, .fromPointerToReference, .fromReferenceWrapperToPointer⟩
        else some ⟨.ptr mu e, .none, m.force.getD .none⟩
      | .ref mu l e =>
        if wrapRefs ∧ m.force = none ∧ isPlacement = false then
          if mu then none else some ⟨.ptr false e, .fromPointerToReference, .fromReferenceWrapperToPointer⟩
        else some ⟨.ref mu l e, .none, m.force.getD .none⟩
      | ty => some ⟨ty, .none, m.force.getD .none⟩

/-- What a parameter asks for: engine/src/conversion/analysis/fun/mod.rs:1752-1761. -/
def argUnsafety (kind : ConvKind) (conv : TypeConversionPolicy) (isPlacement : Bool) : UnsafetyNeeded :=
  if kind = .pointer ∧ isPlacement = false then .always
  else if conv.bridgeUnsafeNeeded = true ∨ isPlacement = true then .justBridge
  else .none

/-- The rest of `convert_fn_arg`, with the name, the type to convert and the class of `this`:
engine/src/conversion/analysis/fun/mod.rs:1735-1781. -/
def convertNamedArg (env : FnEnv) (s : FnState) (ns : List String) (m : ArgMode) (name : Ident) (ty : Ty)
    (selfType : Option (QName × ReceiverMutability)) (intoSelf : Bool) :
    PassRun (FnState × Except Err (FnArg × ArgumentAnalysis)) :=
  let isPlacement := intoSelf || m.force = some .fromPlacementParamToNewReturn
  (convertBoxed env s ns ty).bind fun (s, r) =>
    match r with
    | .error e => .done (s, .error e)
    | .ok a =>
      match argConversion env m a selfType.isSome isPlacement with
      | none => .panic
      | some conv =>
        .done (s, .ok (.typed name a.ty,
          { conversion := conv
            name := name
            selfType := selfType
            hasLifetime := a.kind = .reference || a.kind = .mutableReference
            isMutableReference := a.kind = .mutableReference
            deps := a.deps
            requiresUnsafe := argUnsafety a.kind conv isPlacement
            isPlacementReturnDestination := isPlacement }))

/-- `convert_fn_arg`: engine/src/conversion/analysis/fun/mod.rs:1651-1785. The name of a parameter is always a plain
identifier. -/
def convertFnArg (env : FnEnv) (s : FnState) (ns : List String) (diag : QName) (m : ArgMode) :
    FnArg → PassRun (FnState × Except Err (FnArg × ArgumentAnalysis))
  | .receiver _ => .panic
  | .typed name ty =>
    if name = "this" then
      (thisType m.virtualThis diag ty).bind fun r =>
        match r with
        | .error e => .done (s, .error e)
        | .ok (self, ty) =>
          if m.thisAsReference then
            convertNamedArg env s ns m "self" (.path ["__bindgen_marker_Reference"] [ty]) (some self) m.intoSelf
          else convertNamedArg env s ns m "this" ty (some self) m.intoSelf
    else
      match validateIdentOkForCxx name with
      | .panic => .panic
      | .bad e => .done (s, .error (.invalidIdent e))
      | .ok => convertNamedArg env s ns m name ty none false

/-- `describe_arg`: engine/src/conversion/analysis/fun/mod.rs:2371-2379. -/
def describeArg : FnArg → String
  | .receiver _ => "the function receiver (this/self paramter)"
  | .typed name _ => name

/-- The loop over the parameters of `analyze_foreign_fn`: engine/src/conversion/analysis/fun/mod.rs:742-764. Gives
the parameters which could be converted and the errors of the others. -/
def convertParams (env : FnEnv) (ns : List String) (diag : QName) (m : ArgMode) :
    FnState → List FnArg → PassRun (FnState × List (FnArg × ArgumentAnalysis) × List Err)
  | s, [] => .done (s, [], [])
  | s, i :: l =>
    (convertFnArg env s ns diag m i).bind fun (s, r) =>
      (convertParams env ns diag m s l).bind fun (s, good, bad) =>
        match r with
        | .ok p => .done (s, p :: good, bad)
        | .error e => .done (s, good, .argument (describeArg i) e :: bad)

/-! ## Results -/

/-- `ReturnTypeAnalysis`: engine/src/conversion/analysis/fun/mod.rs:194-201. -/
structure ReturnAnalysis where
  rt : Option Ty := none
  conversion : Option TypeConversionPolicy := none
  wasReference : Bool := false
  wasMutableReference : Bool := false
  deps : List QName := []
  placement : Option (FnArg × ArgumentAnalysis) := none
deriving DecidableEq, Repr

/-- The second half of the match in `convert_return_type`: engine/src/conversion/analysis/fun/mod.rs:2006-2033.
`none` is a panic. -/
def plainReturn (env : FnEnv) (a : Annotated Ty) : Option ReturnAnalysis :=
  let wasMutable := a.kind = .mutableReference
  let wasReference := wasMutable ∨ a.kind = .reference
  (if wasReference ∧ env.conv.cfg.unsafePolicy = .referencesWrappedAllFunctionsSafe then
    TypeConversionPolicy.returnReferenceIntoWrapper a.ty
  else some (.newUnconverted a.ty)).map fun conv =>
    { rt := some a.ty, conversion := some conv, wasReference := wasReference, wasMutableReference := wasMutable,
      deps := a.deps }

/-- The first half of the match in `convert_return_type`, for what is not passed by value:
engine/src/conversion/analysis/fun/mod.rs:1958-2004. -/
def valueReturn (env : FnEnv) (s : FnState) (ns : List String) (diag : QName) (soph : Sophistication) (tn : QName)
    (a : Annotated Ty) : PassRun (FnState × Except Err ReturnAnalysis) :=
  if tn ∈ env.moveitSafe ∧ soph = .regular then
    (convertFnArg env s ns diag
        { thisAsReference := false, force := some .fromPlacementParamToNewReturn }
        (.typed "placement_return_type" (.ptr true a.ty))).bind fun (s, r) =>
      match r with
      | .error e => .done (s, .error e)
      | .ok p =>
        .done (s, .ok { conversion := some (.newForPlacementReturn a.ty), deps := a.deps, placement := some p })
  else
    .done (s, .ok { rt := some a.ty, conversion := some (.newToUniquePtr a.ty), deps := a.deps })

/-- `convert_return_type`: engine/src/conversion/analysis/fun/mod.rs:1939-2037. -/
def convertReturn (env : FnEnv) (s : FnState) (ns : List String) (diag : QName) (soph : Sophistication) :
    Option Ty → PassRun (FnState × Except Err ReturnAnalysis)
  | none => .done (s, .ok {})
  | some ty =>
    (convertBoxed env s ns ty).bind fun (s, r) =>
      match r with
      | .error e => .done (s, .error e)
      | .ok a =>
        match a.ty with
        | .path segs _ =>
          match QName.ofTypePath segs with
          | none => .panic
          | some tn =>
            if tn ∈ env.podSafe then
              match plainReturn env a with
              | none => .panic
              | some r => .done (s, .ok r)
            else valueReturn env s ns diag soph tn a
        | _ =>
          match plainReturn env a with
          | none => .panic
          | some r => .done (s, .ok r)

/-! ## What kind of function it is, and its name -/

/-- Whether a C++ name cannot be a Rust identifier (`validate_ident_ok_for_rust`,
engine/src/types.rs:272-274). -/
def nameBadForRust (n : String) : PassRun Bool :=
  match validateStrOkForRust n with
  | .ok => .done false
  | .bad _ => .done true
  | .panic => .panic

/-- Rust `str::ends_with` for one character. -/
def endsWithU (s : String) : Bool := s.toList.getLast? = some '_'

/-- `ideal_rust_name`: engine/src/conversion/analysis/fun/mod.rs:789-800. -/
def idealRustName (ident : Ident) : Option String → PassRun String
  | none => .done ident
  | some cpp =>
    if endsWithU ident then .done ident
    else (nameBadForRust cpp).bind fun bad => .done (if bad then cpp ++ "_" else cpp)

/-- `get_overload_name` and `get_function_overload_name`:
engine/src/conversion/analysis/fun/mod.rs:1524-1527,1638-1641. -/
def overloadName (s : FnState) (ns : List String) (ty : Option String) (n : String) : FnState × String :=
  let r := ((AMap.get? s.overloads ns).getD {}).getName ty n
  ({ s with overloads := AMap.insert s.overloads ns r.1 }, r.2)

/-- `str::parse::<u32>` succeeds: digits, with a plus sign or not, of a number below `2^32`. -/
def parsesU32 (s : String) : Bool :=
  let ds := match s.toList with
    | '+' :: r => r
    | l => l
  !ds.isEmpty && ds.all (·.isDigit) && ds.foldl (fun n c => n * 10 + (c.toNat - '0'.toNat)) 0 < 2 ^ 32

/-- `constructor_with_suffix`: engine/src/conversion/analysis/fun/mod.rs:2210-2219. -/
def constructorWithSuffix (rustName nestedIdent : String) : Option String :=
  match stripPrefix rustName nestedIdent with
  | some suffix => if suffix = "" || parsesU32 suffix then some suffix else none
  | none => none

/-- `error_context_for_method`: engine/src/conversion/analysis/fun/mod.rs:1468-1479. -/
def methodContext (env : FnEnv) (selfTy : QName) (rustName : String) : ErrorContext :=
  if selfTy ∈ env.generic then .newForItem rustName else .newForMethod selfTy.name rustName

/-- Kind, context for errors, and name of a function. -/
structure KindAndName where
  kind : FnKind
  ctx : ErrorContext
  rustName : String
deriving DecidableEq, Repr

/-- The details of a cast: engine/src/conversion/analysis/fun/mod.rs:1541-1587. -/
def castDetails (fromTy toTy : QName) : CastMutability → TraitMethodDetails
  | .constToConst =>
    { implTy := .path fromTy.toTypePath []
      traitSignature := .path ["AsRef"] [.path toTy.toTypePath []]
      methodName := "as_ref" }
  | .mutToConst =>
    { implTy := .ref true (some "'a") (.path ["core", "pin", "Pin"] [.ref true (some "'a") (.path fromTy.toTypePath [])])
      traitSignature := .path ["AsRef"] [.path toTy.toTypePath []]
      methodName := "as_ref" }
  | .mutToMut =>
    { implTy := .path ["core", "pin", "Pin"] [.ref true (some "'a") (.path fromTy.toTypePath [])]
      traitSignature := .path ["autocxx", "PinMut"] [.path toTy.toTypePath []]
      methodName := "pin_mut" }

/-- The details of an allocator or deallocator: engine/src/conversion/analysis/fun/mod.rs:1620-1630. -/
def allocDetails (ty : QName) (method : Ident) : TraitMethodDetails :=
  { implTy := .path ty.toTypePath []
    traitSignature := .path ["autocxx", "moveit", "MakeCppStorage"] []
    traitUnsafe := true
    methodName := method }

/-- `trait_creation_details_for_synthetic_function`: engine/src/conversion/analysis/fun/mod.rs:1531-1636. -/
def traitKind (s : FnState) (ns : List String) (ideal : String) (selfTy : Option QName) :
    TraitSynthesis → PassRun (FnState × KindAndName)
  | .cast to mutability =>
    match selfTy with
    | none => .panic
    | some fromTy =>
      let (s, n) := overloadName s ns none ideal
      .done (s, ⟨.traitMethod .cast fromTy (castDetails fromTy to mutability), .newForItem n, n⟩)
  | .allocUninitialized ty =>
    let (s, n) := overloadName s ty.ns none ideal
    .done (s, ⟨.traitMethod .alloc ty (allocDetails ty "allocate_uninitialized_cpp_storage"), .newForItem n, n⟩)
  | .freeUninitialized ty =>
    let (s, n) := overloadName s ty.ns none ideal
    .done (s, ⟨.traitMethod .dealloc ty (allocDetails ty "free_uninitialized_cpp_storage"), .newForItem n, n⟩)

/-- The details of a copy or move constructor: engine/src/conversion/analysis/fun/mod.rs:886-898. -/
def copyMoveDetails (selfTy : QName) (isMove : Bool) : TraitMethodDetails :=
  { implTy := .path selfTy.toTypePath []
    traitSignature := .path ["autocxx", "moveit", "new", if isMove then "MoveNew" else "CopyNew"] []
    traitUnsafe := true
    avoidSelf := true
    methodName := if isMove then "move_new" else "copy_new"
    parameterReordering := some [1, 0] }

/-- The details of a destructor: engine/src/conversion/analysis/fun/mod.rs:922-934. -/
def dropDetails (selfTy : QName) : TraitMethodDetails :=
  { implTy := .path selfTy.toTypePath []
    traitSignature := .path ["Drop"] []
    methodName := "drop" }

/-- The name of a method, which may have been settled before: engine/src/conversion/analysis/fun/mod.rs:851-852. -/
def methodName (s : FnState) (ns : List String) (ty : Ident) (pre : Option String) (n : String) : FnState × String :=
  match pre with
  | some p => (s, p)
  | none => overloadName s ns (some ty) n

/-- Kind and name of a copy or move constructor: engine/src/conversion/analysis/fun/mod.rs:842-912. `secondIsRef`
says whether the second parameter became a reference. -/
def copyMoveKind (env : FnEnv) (s : FnState) (ns : List String) (selfTy : QName) (nestedIdent ideal : String)
    (pre : Option String) (isMove secondIsRef : Bool) : FnState × KindAndName :=
  let base := match stripPrefix ideal nestedIdent with
    | some suffix => "new" ++ suffix
    | none => ideal
  let (s, n) := methodName s ns selfTy.name pre base
  let ctx := methodContext env selfTy n
  if isMove then (s, ⟨.traitMethod .moveConstructor selfTy (copyMoveDetails selfTy true), ctx, n⟩)
  else if secondIsRef then (s, ⟨.traitMethod .copyConstructor selfTy (copyMoveDetails selfTy false), ctx, n⟩)
  else (s, ⟨.method (.constructor false) selfTy, ctx, n⟩)

/-- Kind and name of any other method: engine/src/conversion/analysis/fun/mod.rs:939-986. -/
def plainMethodKind (env : FnEnv) (s : FnState) (ns : List String) (f : FuncToConvert) (selfTy : QName)
    (nestedIdent ideal : String) (pre : Option String) (isStatic : Bool) (recv : Option ReceiverMutability) :
    PassRun (FnState × KindAndName) :=
  match constructorWithSuffix ideal nestedIdent with
  | some suffix =>
    let (s, n) := methodName s ns selfTy.name pre ("new" ++ suffix)
    .done (s, ⟨.method (.constructor (f.specialMember = some .defaultConstructor)) selfTy,
      methodContext env selfTy n, n⟩)
  | none =>
    if isStatic then
      let (s, n) := methodName s ns selfTy.name pre ideal
      .done (s, ⟨.method .static selfTy, methodContext env selfTy n, n⟩)
    else
      match recv with
      | none => .panic
      | some r =>
        let (s, n) := methodName s ns selfTy.name pre ideal
        .done (s, ⟨.method (match f.virtualness with
          | none => .normal
          | some .virtual => .virtual r
          | some .pureVirtual => .pureVirtual r) selfTy, methodContext env selfTy n, n⟩)

/-- The decision what kind of function this is: engine/src/conversion/analysis/fun/mod.rs:817-996. -/
def decideKind (env : FnEnv) (s : FnState) (ns : List String) (f : FuncToConvert) (ideal : String)
    (pre : Option String) (selfTy : Option QName) (isStatic : Bool) (recv : Option ReceiverMutability)
    (secondIsRef : Bool) : PassRun (FnState × KindAndName) :=
  match f.addToTrait with
  | some t => traitKind s ns ideal selfTy t
  | none =>
    match selfTy with
    | some selfTy =>
      let nestedIdent := (AMap.get? env.nested selfTy).getD selfTy.name
      match f.specialMember with
      | some .moveConstructor => .done (copyMoveKind env s ns selfTy nestedIdent ideal pre true secondIsRef)
      | some .copyConstructor => .done (copyMoveKind env s ns selfTy nestedIdent ideal pre false secondIsRef)
      | some .destructor =>
        let (s, n) := methodName s ns selfTy.name pre ideal
        .done (s, ⟨.traitMethod .destructor selfTy (dropDetails selfTy), methodContext env selfTy n, n⟩)
      | _ => plainMethodKind env s ns f selfTy nestedIdent ideal pre isStatic recv
    | none =>
      let (s, n) := overloadName s ns none ideal
      .done (s, ⟨.function, .newForItem n, n⟩)

/-! ## Special treatment of the parameters of constructors -/

/-- `reanalyze_parameter`: engine/src/conversion/analysis/fun/mod.rs:1484-1522. -/
def reanalyze (env : FnEnv) (s : FnState) (ns : List String) (diag : QName) (inputs : List FnArg) (m : ArgMode)
    (idx : Nat) (ps : List (FnArg × ArgumentAnalysis)) :
    PassRun (FnState × List (FnArg × ArgumentAnalysis) × Option Err) :=
  match inputs[idx]? with
  | none => .panic
  | some i =>
    (convertFnArg env s ns diag m i).bind fun (s, r) =>
      match r with
      | .error e => .done (s, ps, some e)
      | .ok p => if idx < ps.length then .done (s, ps.set idx p, none) else .panic

/-- A later problem replaces an earlier one (`set_ignore_reason`,
engine/src/conversion/analysis/fun/mod.rs:1002-1004). -/
def laterErr (old new : Option Err) : Option Err := new.orElse fun _ => old

/-- The number of parameters of a copy or move constructor:
engine/src/conversion/analysis/fun/mod.rs:1054-1059,1079-1084. -/
def ctorArity (n : Nat) : Option Err :=
  if n < 2 then some .constructorWithOnlyOneParam
  else if n > 2 then some .constructorWithMultipleParams
  else none

/-- The second look at the parameters: engine/src/conversion/analysis/fun/mod.rs:1012-1113. -/
def reanalyzeParams (env : FnEnv) (s : FnState) (ns : List String) (diag : QName) (f : FuncToConvert)
    (soph : Sophistication) (kind : FnKind) (ps : List (FnArg × ArgumentAnalysis)) :
    PassRun (FnState × List (FnArg × ArgumentAnalysis) × Option Err) :=
  let m : ArgMode := { virtualThis := f.synthesizedThisType, thisAsReference := false, soph := soph }
  match kind with
  | .method (.constructor _) _ => reanalyze env s ns diag f.inputs { m with intoSelf := true } 0 ps
  | .traitMethod .destructor _ _ => reanalyze env s ns diag f.inputs { m with force := some .fromTypeToPtr } 0 ps
  | .traitMethod .copyConstructor _ _ =>
    (reanalyze env s ns diag f.inputs { m with force := some .fromPinMaybeUninitToPtr } 0 ps).bind
      fun (s, ps', e) => .done (s, ps', laterErr (ctorArity ps.length) e)
  | .traitMethod .moveConstructor _ _ =>
    (reanalyze env s ns diag f.inputs { m with force := some .fromPinMaybeUninitToPtr } 0 ps).bind
      fun (s, ps', e) =>
        (reanalyze env s ns diag f.inputs { m with force := some .fromPinMoveRefToPtr, isMove := true } 1 ps').bind
          fun (s, ps'', e') => .done (s, ps'', laterErr (laterErr (ctorArity ps.length) e) e')
  | _ => .done (s, ps, none)

/-! ## Reasons to ignore a function -/

/-- The last branch of the chain of tests: engine/src/conversion/analysis/fun/mod.rs:1148-1176. The outer `none` is
the panic of `is_on_allowlist`. -/
def kindProblem (env : FnEnv) (kind : FnKind) : Option (Option Err) :=
  match kind with
  | .function => some none
  | .traitMethod _ q _ =>
    some (if q ∈ env.anonymous then some .methodInAnonymousNamespace
      else if q ∈ env.generic then some .methodOfGenericType
      else none)
  | .method k q =>
    if k ≠ .static ∧ isCxxAcceptableReceiver q = false then some (some .unsupportedReceiver)
    else
      (env.conv.cfg.isOnAllowlist env.hash q.toCppName).map fun ok =>
        if !ok then some .methodOfNonAllowlistedType
        else if q ∈ env.anonymous then some .methodInAnonymousNamespace
        else if q ∈ env.generic then some .methodOfGenericType
        else none

/-- `return_type_is_reference`: engine/src/conversion/analysis/fun/mod.rs:2293-2299. -/
def returnsRvalueRef : Option Ty → Bool
  | some ty => typeIsReference ty true
  | none => false

/-- The chain of tests: engine/src/conversion/analysis/fun/mod.rs:1130-1177. -/
def chainProblem (env : FnEnv) (f : FuncToConvert) (kind : FnKind) (bads : List Err) : Option (Option Err) :=
  match bads with
  | e :: _ => some (some e)
  | [] =>
    if f.specialMember = some .assignmentOperator then some (some .assignmentOperator)
    else if returnsRvalueRef f.output then some (some .rvalueReturn)
    else if f.isDeleted = some .deleted then some (some .deleted)
    else kindProblem env kind

/-- The problems found before the return type is looked at: engine/src/conversion/analysis/fun/mod.rs:1119-1177. -/
def signatureProblem (env : FnEnv) (f : FuncToConvert) (kind : FnKind) (bads : List Err) :
    Option (Option Err) :=
  (chainProblem env f kind bads).map fun e =>
    laterErr (laterErr (if f.cppVis = .priv then some .privateMethod else none)
      (if f.variadic then some .variadic else none)) e

/-- The problems with references in the result: engine/src/conversion/analysis/fun/mod.rs:1229-1264. -/
def referenceProblem (rustName : String) (r : ReturnAnalysis) (ps : List ArgumentAnalysis) : Option Err :=
  let refs := (ps.filter fun p => p.hasLifetime).length
  let muts := (ps.filter fun p => p.hasLifetime && p.isMutableReference).length
  laterErr
    (if r.wasReference then
      if refs = 0 then some (.noInputReference rustName)
      else if refs > 1 then some (.multipleInputReferences rustName) else none
    else none)
    (if r.wasMutableReference then
      if muts = 0 then some (.noMutableInputReference rustName)
      else if muts > 1 then some (.multipleMutableInputReferences rustName) else none
    else none)

/-! ## Wrappers -/

/-- `wrapper_function_needed`: engine/src/conversion/analysis/fun/mod.rs:1288-1311. -/
def wrapperNeeded (env : FnEnv) (f : FuncToConvert) (kind : FnKind) (bridgeName rustName : String)
    (ps : List ArgumentAnalysis) (ret : Option TypeConversionPolicy) (cppNameBad : Bool) : Bool :=
  match kind with
  | .method .static _ | .method (.constructor _) _ | .method (.virtual _) _ | .method (.pureVirtual _) _
  | .traitMethod .copyConstructor _ _ | .traitMethod .moveConstructor _ _ | .traitMethod .destructor _ _ => true
  | k =>
    (match k with
      | .method .. => decide (bridgeName ≠ rustName)
      | _ => false) ||
    ps.any (fun p => p.conversion.cppWorkNeeded) || (match ret with
      | some r => r.cppWorkNeeded
      | none => false) ||
    cppNameBad || f.syntheticCpp.isSome || env.forceWrappers

/-- What the wrapper does: engine/src/conversion/analysis/fun/mod.rs:1325-1370. -/
def wrapperPayload (ns : List String) (f : FuncToConvert) (kind : FnKind) (cppFn : String) :
    CppFunctionBody × CppFunctionKind :=
  match f.syntheticCpp with
  | some p => p
  | none =>
    match kind with
    | .method (.constructor _) q | .traitMethod .copyConstructor q _ | .traitMethod .moveConstructor q _ =>
      (.placementNew ns q.name, .constructor)
    | .traitMethod .destructor q _ => (.destructor ns q.name, .function)
    | .method .static q => (.staticMethodCall ns q.name cppFn, .function)
    | .method .. => (.functionCall ns cppFn, .method)
    | _ => (.functionCall ns cppFn, .function)

/-- The name of the wrapper: engine/src/conversion/analysis/fun/mod.rs:1316-1324. -/
def wrapperName (env : FnEnv) (bridgeName : String) : String :=
  uniquify env (bridgeName ++ (if endsWithU bridgeName then "" else "_") ++ "autocxx_wrapper")

/-- A parameter of the wrapper as the bridge sees it: engine/src/conversion/analysis/fun/mod.rs:1383-1393. -/
def bridgeParam (p : ArgumentAnalysis) : FnArg :=
  .typed (if p.selfType.isSome then "autocxx_gen_this" else p.name) p.conversion.convertedRustType

/-- The type the wrapper returns as the bridge sees it: engine/src/conversion/analysis/fun/mod.rs:1372-1379. -/
def bridgeReturn (r : ReturnAnalysis) : Option Ty :=
  match r.conversion with
  | some c => if c.populateReturnValue then some c.unconvertedRustType else r.rt
  | none => r.rt

/-- `rust_wrapper_needed`: engine/src/conversion/analysis/fun/mod.rs:1416-1426. -/
def rustWrapperNeeded (env : FnEnv) (kind : FnKind) (bridgeName rustName : String) (ps : List ArgumentAnalysis)
    (ret : Option TypeConversionPolicy) : Bool :=
  if ps.any (fun p => p.conversion.rustWorkNeeded) || (match ret with
      | some r => r.rustWorkNeeded
      | none => false) then true
  else
    match kind with
    | .traitMethod .. => true
    | .method .. => decide (bridgeName ≠ rustName)
    | .function => env.forceWrappers

/-- `rust_rename_strategy`: engine/src/conversion/analysis/fun/mod.rs:1434-1440. -/
def renameStrategy (kind : FnKind) (bridgeName rustName : String) (rustWrapper : Bool) : RustRenameStrategy :=
  if rustWrapper then .renameUsingWrapperFunction
  else
    match kind with
    | .function => if bridgeName ≠ rustName then .renameInOutputMod rustName else .none
    | _ => .none

/-- The last part of `analyze_foreign_fn`, once everything has been looked at:
engine/src/conversion/analysis/fun/mod.rs:1213-1465. `ign` is the problem known so far. The outer `none` is a
panic. -/
def finishAnalysis (env : FnEnv) (name : ApiName) (f : FuncToConvert) (kn : KindAndName)
    (ps : List (FnArg × ArgumentAnalysis)) (paramDeps : List QName) (r : ReturnAnalysis) (bridgeName : String)
    (ign : Option Err) (cppNameBad : Bool) : Option (FnAnalysis × ApiName) :=
  let all := ps ++ r.placement.toList
  let details := all.map (·.2)
  let wrap := wrapperNeeded env f kn.kind bridgeName kn.rustName details r.conversion cppNameBad
  let finalName := if wrap then wrapperName env bridgeName else bridgeName
  let payload := wrapperPayload name.name.ns f kn.kind (name.cppName.getD kn.rustName)
  let rustWrapper := rustWrapperNeeded env kn.kind finalName kn.rustName details r.conversion
  let refProblem := referenceProblem kn.rustName r details
  let done (nameProblem : Option Err) : FnAnalysis × ApiName :=
    ({ cxxbridgeName := finalName
       rustName := kn.rustName
       cppCallName := match name.cppName with
         | some n => some n
         | none => if bridgeName ≠ kn.rustName then some kn.rustName else none
       params := if wrap then details.map bridgeParam else all.map (·.1)
       kind := kn.kind
       retType := if wrap then bridgeReturn r else r.rt
       paramDetails := details
       retConversion := r.conversion
       requiresUnsafe := shouldBeUnsafe env.policy details kn.kind
       cppWrapper := if wrap then
           some { payload := payload.1
                  wrapperFunctionName := finalName
                  originalCppName := name.cppName.getD finalName
                  returnConversion := r.conversion
                  argumentConversion := details.map (·.conversion)
                  kind := payload.2
                  passObsField := false
                  qualification := none }
         else none
       deps := (paramDeps ++ r.deps).foldl setInsert []
       ignoreReason := (laterErr (laterErr ign refProblem) nameProblem).map fun e => ⟨e, some kn.ctx⟩
       externallyCallable := f.cppVis = .pub
       rustWrapperNeeded := rustWrapper
       renameStrategy := renameStrategy kn.kind finalName kn.rustName rustWrapper },
     ⟨⟨name.name.ns, finalName⟩, name.cppName⟩)
  match validateIdentOkForCxx finalName with
  | .panic => none
  | .bad e => some (done (some (.invalidIdent e)))
  | .ok => some (done none)

/-- Whether the second parameter became a Rust reference: engine/src/conversion/analysis/fun/mod.rs:857-862. -/
def secondIsRef (ps : List (FnArg × ArgumentAnalysis)) : Bool :=
  match ps[1]? with
  | some (_, a) =>
    match a.conversion.unwrappedType with
    | .ref .. => true
    | _ => false
  | none => false

/-- The class a function belongs to, by its parameters: engine/src/conversion/analysis/fun/mod.rs:770-774. -/
def selfOfParams (ps : List (FnArg × ArgumentAnalysis)) : Option (QName × ReceiverMutability) :=
  (ps.filterMap fun p => p.2.selfType).head?

/-- The class which is part of the name in the bridge: engine/src/conversion/analysis/fun/mod.rs:1183-1187. -/
def FnKind.bridgeTy : FnKind → Option Ident
  | .function => none
  | .method _ q | .traitMethod _ q _ => some q.name

/-- What the parameters depend on: engine/src/conversion/analysis/fun/mod.rs:765-768. -/
def paramDepsOf (ps : List (FnArg × ArgumentAnalysis)) : List QName := ps.flatMap fun p => p.2.deps

/-- `analyze_foreign_fn`: engine/src/conversion/analysis/fun/mod.rs:719-1466. -/
def analyzeForeignFn (env : FnEnv) (s : FnState) (name : ApiName) (f : FuncToConvert) (soph : Sophistication)
    (pre : Option String) : PassRun (FnState × FnAnalysis × ApiName) :=
  let ns := name.name.ns
  (mkIdent (name.cppName.getD f.ident)).bind fun d =>
  let diag : QName := ⟨ns, d⟩
  (convertParams env ns diag { virtualThis := f.synthesizedThisType, soph := soph } s f.inputs).bind
    fun (s, ps, bads) =>
  (idealRustName f.ident name.cppName).bind fun ideal =>
  let self := selfOfParams ps
  let isStatic := self.isNone && f.selfTy.isSome
  let selfTy := match self with
    | some q => some q.1
    | none => f.selfTy
  (decideKind env s ns f ideal pre selfTy isStatic (self.map (·.2)) (secondIsRef ps)).bind fun (s, kn) =>
  (mkIdent kn.rustName).bind fun _ =>
  (reanalyzeParams env s ns diag f soph kn.kind ps).bind fun (s, ps', e) =>
  match signatureProblem env f kn.kind bads with
  | none => .panic
  | some e' =>
    let (bridge, bridgeName) := s.bridge.getName
      { ty := kn.kind.bridgeTy, found := kn.rustName, ns := ns }
    let s := { s with bridge := bridge }
    (mkIdent bridgeName).bind fun _ =>
    (convertReturn env s ns diag soph f.output).bind fun (s, r) =>
    let (ret, e'') : ReturnAnalysis × Option Err := match r with
      | .ok r => (r, none)
      | .error e => ({}, some e)
    (match name.cppName with
      | some n => nameBadForRust n
      | none => .done false).bind fun bad =>
    match finishAnalysis env name f kn ps' (paramDepsOf ps) ret bridgeName
        (laterErr (laterErr e e') e'') bad with
    | none => .panic
    | some r => .done (s, r)

end Verif
