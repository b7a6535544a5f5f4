/-!
# Core data types

The data which flows through autocxx's conversion pipeline: qualified names, Rust types,
functions, structs and the `Api` enum.

Common simplifications of this file: doc attributes, spans, visibility tokens and other purely
textual payloads (bodies of `const` and `enum` items, error texts) are dropped or kept as an opaque
`String`. `IndexSet`/`IndexMap` are modelled by lists in insertion order.
-/

set_option autoImplicit false

namespace Verif

/-- `crate::minisyn::Ident` / `String`. Models engine/src/minisyn.rs (newtype wrappers). -/
abbrev Ident := String

/-- `QualifiedName(Namespace, String)`: engine/src/types.rs:28,91. -/
structure QName where
  ns : List String
  name : String
deriving DecidableEq, Repr, Inhabited

/-- `ApiName`: engine/src/conversion/api.rs:217-220. -/
structure ApiName where
  name : QName
  cppName : Option String := none
deriving DecidableEq, Repr, Inhabited

/-- `ApiName::new_from_qualified_name`: engine/src/conversion/api.rs:238-243. -/
def ApiName.ofQName (q : QName) : ApiName := ⟨q, none⟩

/-- `syn::Type`, restricted to the shapes autocxx inspects. Simplification: generic arguments are
kept only on the last segment of a path (the only place autocxx looks), and every kind of type it
does not look into is `other`. `neverLt` etc. do not occur. -/
inductive Ty where
  | path (segs : List String) (args : List Ty)
  | ref (mutable : Bool) (lifetime : Option String) (elem : Ty)
  | ptr (mutable : Bool) (elem : Ty)
  | array (elem : Ty) (len : String)
  | other (tokens : String)
deriving Repr, Inhabited

mutual
/-- Decidable equality of types (`syn::Type: Eq`), written out because `Ty` is nested. -/
def Ty.decEq : (a b : Ty) → Decidable (a = b)
  | .path s a, .path s' a' =>
    if h : s = s' then
      match Ty.decEqs a a' with
      | isTrue h' => isTrue (by rw [h, h'])
      | isFalse h' => isFalse (by intro e; cases e; exact h' rfl)
    else isFalse (by intro e; cases e; exact h rfl)
  | .ref m l e, .ref m' l' e' =>
    if h : m = m' ∧ l = l' then
      match Ty.decEq e e' with
      | isTrue h' => isTrue (by rw [h.1, h.2, h'])
      | isFalse h' => isFalse (by intro e; cases e; exact h' rfl)
    else isFalse (by intro e; cases e; exact h ⟨rfl, rfl⟩)
  | .ptr m e, .ptr m' e' =>
    if h : m = m' then
      match Ty.decEq e e' with
      | isTrue h' => isTrue (by rw [h, h'])
      | isFalse h' => isFalse (by intro e; cases e; exact h' rfl)
    else isFalse (by intro e; cases e; exact h rfl)
  | .array e l, .array e' l' =>
    if h : l = l' then
      match Ty.decEq e e' with
      | isTrue h' => isTrue (by rw [h, h'])
      | isFalse h' => isFalse (by intro e; cases e; exact h' rfl)
    else isFalse (by intro e; cases e; exact h rfl)
  | .other s, .other s' =>
    if h : s = s' then isTrue (by rw [h]) else isFalse (by intro e; cases e; exact h rfl)
  | .path .., .ref .. | .path .., .ptr .. | .path .., .array .. | .path .., .other ..
  | .ref .., .path .. | .ref .., .ptr .. | .ref .., .array .. | .ref .., .other ..
  | .ptr .., .path .. | .ptr .., .ref .. | .ptr .., .array .. | .ptr .., .other ..
  | .array .., .path .. | .array .., .ref .. | .array .., .ptr .. | .array .., .other ..
  | .other .., .path .. | .other .., .ref .. | .other .., .ptr .. | .other .., .array .. =>
    isFalse (by intro e; cases e)
/-- Decidable equality of lists of types. -/
def Ty.decEqs : (a b : List Ty) → Decidable (a = b)
  | [], [] => isTrue rfl
  | a :: as, b :: bs =>
    match Ty.decEq a b with
    | isTrue h =>
      match Ty.decEqs as bs with
      | isTrue h' => isTrue (by rw [h, h'])
      | isFalse h' => isFalse (by intro e; cases e; exact h' rfl)
    | isFalse h => isFalse (by intro e; cases e; exact h rfl)
  | [], _ :: _ => isFalse (by intro e; cases e)
  | _ :: _, [] => isFalse (by intro e; cases e)
end

instance : DecidableEq Ty := Ty.decEq

/-- `api::TypeKind`: engine/src/conversion/api.rs:40-52. -/
inductive TypeKind where
  | pod | nonPod | opaque | abstract
deriving DecidableEq, Repr, Inhabited

/-- `ReceiverMutability`: engine/src/conversion/analysis/fun/mod.rs:78-81. -/
inductive ReceiverMutability where
  | const | mutable
deriving DecidableEq, Repr, Inhabited

/-- `MethodKind`: engine/src/conversion/analysis/fun/mod.rs:84-90. -/
inductive MethodKind where
  | normal
  | constructor (isDefault : Bool)
  | static
  | virtual (m : ReceiverMutability)
  | pureVirtual (m : ReceiverMutability)
deriving DecidableEq, Repr, Inhabited

/-- `TraitMethodKind`: engine/src/conversion/analysis/fun/mod.rs:93-100. -/
inductive TraitMethodKind where
  | copyConstructor | moveConstructor | cast | destructor | alloc | dealloc
deriving DecidableEq, Repr, Inhabited

/-- `TraitMethodDetails`: engine/src/conversion/analysis/fun/mod.rs:103-114, with its `TraitImplSignature`
(engine/src/conversion/api.rs:106-111) spelt out: the type the trait is implemented for, the trait, and whether the
trait is unsafe. -/
structure TraitMethodDetails where
  implTy : Ty := .other ""
  traitSignature : Ty := .other ""
  traitUnsafe : Bool := false
  avoidSelf : Bool := false
  methodName : Ident := ""
  parameterReordering : Option (List Nat) := none
  traitCallIsUnsafe : Bool := false
deriving DecidableEq, Repr, Inhabited

/-- `FnKind`: engine/src/conversion/analysis/fun/mod.rs:117-132. -/
inductive FnKind where
  | function
  | method (kind : MethodKind) (implFor : QName)
  | traitMethod (kind : TraitMethodKind) (implFor : QName) (details : TraitMethodDetails)
deriving DecidableEq, Repr, Inhabited

/-- `UnsafetyNeeded`: engine/src/conversion/api.rs:482-486. -/
inductive UnsafetyNeeded where
  | none | justBridge | always
deriving DecidableEq, Repr, Inhabited

/-- `CppConversionType`: engine/src/conversion/analysis/fun/function_wrapper.rs:19-31. -/
inductive CppConversionType where
  | none | move | fromUniquePtrToValue | fromPtrToValue | fromValueToUniquePtr | fromPtrToMove
  | ignoredPlacementPtrParameter | fromReturnValueToPlacementPtr
  | fromPointerToReference | fromReferenceToPointer
deriving DecidableEq, Repr, Inhabited

/-- `RustConversionType`: engine/src/conversion/analysis/fun/function_wrapper.rs:52-64. -/
inductive RustConversionType where
  | none | fromStr | toBoxedUpHolder (sub : ApiName) | fromPinMaybeUninitToPtr
  | fromPinMoveRefToPtr | fromTypeToPtr | fromValueParamToPtr | fromPlacementParamToNewReturn
  | fromRValueParamToPtr | fromReferenceWrapperToPointer | fromPointerToReferenceWrapper
deriving DecidableEq, Repr, Inhabited

/-- `TypeConversionPolicy`: engine/src/conversion/analysis/fun/function_wrapper.rs:92-96. -/
structure TypeConversionPolicy where
  unwrappedType : Ty
  cppConversion : CppConversionType := .none
  rustConversion : RustConversionType := .none
deriving DecidableEq, Repr, Inhabited

/-- `CppFunctionBody`: engine/src/conversion/analysis/fun/function_wrapper.rs:236-245. -/
inductive CppFunctionBody where
  | functionCall (ns : List String) (id : String)
  | staticMethodCall (ns : List String) (ty : Ident) (id : String)
  | placementNew (ns : List String) (id : Ident)
  | constructSuperclass (sup : String)
  | cast
  | destructor (ns : List String) (id : Ident)
  | allocUninitialized (ty : QName)
  | freeUninitialized (ty : QName)
deriving DecidableEq, Repr, Inhabited

/-- `CppFunctionKind`: engine/src/conversion/analysis/fun/function_wrapper.rs:248-254. -/
inductive CppFunctionKind where
  | function | method | constructor | constMethod | synthesizedConstructor
deriving DecidableEq, Repr, Inhabited

/-- `CppFunction`: engine/src/conversion/analysis/fun/function_wrapper.rs:257-268. -/
structure CppFunction where
  payload : CppFunctionBody := .cast
  wrapperFunctionName : Ident := ""
  originalCppName : String := ""
  returnConversion : Option TypeConversionPolicy := none
  argumentConversion : List TypeConversionPolicy := []
  kind : CppFunctionKind := .function
  passObsField : Bool := false
  qualification : Option QName := none
deriving DecidableEq, Repr, Inhabited

/-- `InvalidIdentError`: engine/src/types.rs:238-249. -/
inductive InvalidIdentError where
  | union | bitfield | tooManyUnderscores | bindgenTy | reservedName (s : String)
deriving DecidableEq, Repr, Inhabited

/-- `ConvertErrorFromCpp`: engine/src/conversion/convert_error.rs:39-160. The variants which the
modelled passes produce are kept (without those texts which quote a type or token); all the rest are
`other` with a label. -/
inductive Err where
  | unsafePodType (msg : String)
  | noInputReference (f : String)
  | multipleInputReferences (f : String)
  | noMutableInputReference (f : String)
  | multipleMutableInputReferences (f : String)
  | infinitelyRecursiveTypedef (q : QName)
  | didNotGenerateAnything (s : String)
  | typeContainingForwardDeclaration (q : QName)
  | blocked (q : QName)
  | unusedTemplateParam
  | unknownDependentType (q : QName)
  | ignoredDependent (qs : List QName)
  | invalidIdent (e : InvalidIdentError)
  | duplicateCxxBridgeName (names : List String)
  | abstractNestedType
  | nestedOpaqueTypedef
  | nonPublicNestedType
  | rvalueReturn
  | privateMethod
  | assignmentOperator
  | deleted
  | rvalueReferenceField
  | methodOfNonAllowlistedType
  | methodOfGenericType
  | duplicateItemsFoundInParsing
  | variadic
  | typedefTakesGenericParameters
  | methodInAnonymousNamespace
  | conflictingTemplatedArgsWithTypedef (q : QName)
  | unexpectedThisType (q : QName)
  | unsupportedBuiltInType (q : QName)
  | unsupportedType
  | unknownType
  | templatedTypeContainingNonPathArg (q : QName)
  | invalidArrayPointee
  | invalidPointerPointee
  | invalidPointee
  | unsupportedReceiver
  | boxContainingNonRustType (q : QName)
  | rustTypeWithAPath (q : QName)
  | constructorWithOnlyOneParam
  | constructorWithMultipleParams
  | invalidTypeForCppPtr (q : QName)
  | invalidTypeForCppVector (q : QName)
  | genericsWithinVector
  | concreteVersionOfIgnoredTemplate
  | typedefToTypeInAnonymousNamespace
  | referringToGenericTypeParam
  | forwardDeclaredNestedType
  | argument (arg : String) (err : Err)
  | other (label : String)
deriving DecidableEq, Repr, Inhabited

/-- `ErrorContextType`: engine/src/conversion/convert_error.rs:213-217. -/
inductive ErrorContext where
  | item (id : Ident)
  | sanitizedItem (id : Ident)
  | method (selfTy : Ident) (method : Ident)
deriving DecidableEq, Repr, Inhabited

/-- `ConvertErrorWithContext`: engine/src/conversion/convert_error.rs:281-284. -/
structure ErrWithCtx where
  err : Err
  ctx : Option ErrorContext
deriving DecidableEq, Repr, Inhabited

/-- `syn::FnArg`: a receiver, or a named and typed argument. -/
inductive FnArg where
  | receiver (selfTy : Ty)
  | typed (name : Ident) (ty : Ty)
deriving DecidableEq, Repr, Inhabited

/-- `Virtualness`: engine/src/conversion/api.rs (from autocxx_bindgen callbacks). -/
inductive Virtualness where
  | virtual | pureVirtual
deriving DecidableEq, Repr, Inhabited

/-- `CppVisibility`: re-exported from autocxx_bindgen. -/
inductive CppVisibility where
  | pub | prot | priv
deriving DecidableEq, Repr, Inhabited

/-- `SpecialMemberKind`: re-exported from autocxx_bindgen. -/
inductive SpecialMemberKind where
  | defaultConstructor | copyConstructor | moveConstructor | destructor | assignmentOperator
deriving DecidableEq, Repr, Inhabited

/-- `Explicitness`: re-exported from autocxx_bindgen (`=delete` / `=default`). -/
inductive Explicitness where
  | deleted | defaulted
deriving DecidableEq, Repr, Inhabited

/-- `CastMutability`: engine/src/conversion/api.rs:62-66. -/
inductive CastMutability where
  | constToConst | mutToConst | mutToMut
deriving DecidableEq, Repr, Inhabited

/-- `TraitSynthesis`: engine/src/conversion/api.rs:71-78. -/
inductive TraitSynthesis where
  | cast (toType : QName) (mutability : CastMutability)
  | allocUninitialized (ty : QName)
  | freeUninitialized (ty : QName)
deriving DecidableEq, Repr, Inhabited

/-- `Provenance`: engine/src/conversion/api.rs:145-149, with `SubclassConstructorDetails` (83-89) spelt out. -/
inductive Provenance where
  | bindgen
  | synthesizedOther
  | synthesizedSubclassConstructor (sub : ApiName) (isTrivial : Bool) (cppImpl : CppFunction)
deriving DecidableEq, Repr, Inhabited

/-- `FuncToConvert`: engine/src/conversion/api.rs:162-188 (without doc attributes and the Rust
visibility token). -/
structure FuncToConvert where
  provenance : Provenance := .bindgen
  ident : Ident := ""
  inputs : List FnArg := []
  variadic : Bool := false
  output : Option Ty := none
  virtualness : Option Virtualness := none
  cppVis : CppVisibility := .pub
  specialMember : Option SpecialMemberKind := none
  originalName : Option String := none
  selfTy : Option QName := none
  synthesizedThisType : Option QName := none
  addToTrait : Option TraitSynthesis := none
  syntheticCpp : Option (CppFunctionBody × CppFunctionKind) := none
  isDeleted : Option Explicitness := none
deriving DecidableEq, Repr, Inhabited

/-- `ArgumentAnalysis`: engine/src/conversion/analysis/fun/mod.rs:183-192. -/
structure ArgumentAnalysis where
  conversion : TypeConversionPolicy := {unwrappedType := .other ""}
  name : Ident := ""
  selfType : Option (QName × ReceiverMutability) := none
  hasLifetime : Bool := false
  isMutableReference : Bool := false
  deps : List QName := []
  requiresUnsafe : UnsafetyNeeded := .none
  isPlacementReturnDestination : Bool := false
deriving DecidableEq, Repr, Inhabited

/-- `RustRenameStrategy`: engine/src/conversion/analysis/fun/mod.rs:138-147. -/
inductive RustRenameStrategy where
  | none | renameInOutputMod (id : Ident) | renameUsingWrapperFunction
deriving DecidableEq, Repr, Inhabited

/-- `FnAnalysis`: engine/src/conversion/analysis/fun/mod.rs:150-180. `ignoreReason = none` is
`Ok(())`. The visibility token is dropped. -/
structure FnAnalysis where
  cxxbridgeName : Ident := ""
  rustName : String := ""
  cppCallName : Option String := none
  params : List FnArg := []
  kind : FnKind := .function
  retType : Option Ty := none
  paramDetails : List ArgumentAnalysis := []
  retConversion : Option TypeConversionPolicy := none
  requiresUnsafe : UnsafetyNeeded := .none
  cppWrapper : Option CppFunction := none
  deps : List QName := []
  ignoreReason : Option ErrWithCtx := none
  externallyCallable : Bool := true
  rustWrapperNeeded : Bool := false
  renameStrategy : RustRenameStrategy := .none
deriving DecidableEq, Repr, Inhabited

/-- `StructDetails`: engine/src/conversion/api.rs:56-59. A field of the `syn::ItemStruct` is its
name, whether it is `pub`, and its type; generics are the names of the type parameters. -/
structure StructDetails where
  fields : List (Ident × Bool × Ty) := []
  generics : List Ident := []
  hasRvalueReferenceFields : Bool := false
deriving DecidableEq, Repr, Inhabited

/-- `type_converter::TypeKind`: engine/src/conversion/analysis/type_converter.rs:34-42. -/
inductive ConvKind where
  | regular | pointer
  | subclassHolder (id : Ident)
  | reference | rvalueReference | mutableReference
deriving DecidableEq, Repr, Inhabited

/-- `FieldInfo`: engine/src/conversion/analysis/pod/mod.rs:36-40. -/
structure FieldInfo where
  ty : Ty
  typeKind : ConvKind := .regular
  bindgenOpaqueData : Bool := false
deriving DecidableEq, Repr, Inhabited

/-- `PodAnalysis`: engine/src/conversion/analysis/pod/mod.rs:43-60. -/
structure PodAnalysis where
  kind : TypeKind := .nonPod
  bases : List QName := []
  castableBases : List QName := []
  fieldDeps : List QName := []
  fieldDefinitionDeps : List QName := []
  fieldInfo : List FieldInfo := []
  numGenerics : Nat := 0
  inAnonymousNamespace : Bool := false
deriving DecidableEq, Repr, Inhabited

/-- `PublicConstructors`: engine/src/conversion/analysis/fun/mod.rs:258-261. -/
structure PublicConstructors where
  moveConstructor : Bool := false
  destructor : Bool := false
deriving DecidableEq, Repr, Inhabited

/-- `PodAndConstructorAnalysis`: engine/src/conversion/analysis/fun/mod.rs:217-220. -/
structure PodAndConstructorAnalysis where
  pod : PodAnalysis := {}
  constructors : PublicConstructors := {}
deriving DecidableEq, Repr, Inhabited

/-- `PodAndDepAnalysis`: engine/src/conversion/analysis/fun/mod.rs:245-249. -/
structure PodAndDepAnalysis where
  pod : PodAnalysis := {}
  constructorAndAllocatorDeps : List QName := []
  constructors : PublicConstructors := {}
deriving DecidableEq, Repr, Inhabited

/-- `TypedefAnalysis`: engine/src/conversion/analysis/tdef.rs. Only `deps` and the converted
target are kept. -/
structure TypedefAnalysis where
  target : Ty := .other ""
  deps : List QName := []
deriving DecidableEq, Repr, Inhabited

/-- `TypedefKind`: engine/src/conversion/api.rs:209-212, without the tokens: whether it is a `use` item, the
target, and the names of the generic parameters (of a `type` item). -/
structure TypedefItem where
  isUse : Bool := false
  ty : Ty
  generics : List Ident := []
deriving DecidableEq, Repr

/-- `SuperclassMethod`: engine/src/conversion/api.rs:94-103. -/
structure SuperclassMethod where
  name : Ident := ""
  receiver : QName := ⟨[], ""⟩
  params : List FnArg := []
  paramNames : List Ident := []
  retType : Option Ty := none
  receiverMutability : ReceiverMutability := .const
  requiresUnsafe : UnsafetyNeeded := .none
  isPureVirtual : Bool := false
deriving DecidableEq, Repr, Inhabited

/-- `RustSubclassFnDetails`: engine/src/conversion/api.rs:469-479. -/
structure RustSubclassFnDetails where
  params : List FnArg := []
  ret : Option Ty := none
  cppImpl : CppFunction := {}
  methodName : Ident := ""
  superclass : QName := ⟨[], ""⟩
  receiverMutability : ReceiverMutability := .const
  dependencies : List QName := []
  requiresUnsafe : UnsafetyNeeded := .none
  isPureVirtual : Bool := false
deriving DecidableEq, Repr, Inhabited

/-- `Api<T>`: engine/src/conversion/api.rs:359-466. The three parameters are the phase's
`TypedefAnalysis`, `StructAnalysis` and `FunAnalysis` (api.rs:192-196). Payloads: `const_item`,
`ItemEnum` and Rust paths are opaque strings; of the details of an `ExternCppType` only whether it is opaque is
kept. -/
inductive Api (T S F : Type) where
  | forwardDeclaration (name : ApiName) (err : Option ErrWithCtx)
  | opaqueTypedef (name : ApiName) (forwardDeclaration : Bool)
  | concreteType (name : ApiName) (rsDefinition : Option Ty) (cppDefinition : String)
  | stringConstructor (name : ApiName)
  | function (name : ApiName) (func : FuncToConvert) (analysis : F)
  | const (name : ApiName) (item : String)
  | typedef (name : ApiName) (item : TypedefItem) (oldTyname : Option QName) (analysis : T)
  | enum (name : ApiName) (item : String)
  | struct (name : ApiName) (details : StructDetails) (analysis : S)
  | ctype (name : ApiName) (typename : QName)
  | ignoredItem (name : ApiName) (err : Err) (ctx : Option ErrorContext)
  | rustType (name : ApiName) (path : String)
  | rustFn (name : ApiName) (deps : List QName)
  | rustSubclassFn (name : ApiName) (subclass : ApiName) (details : RustSubclassFnDetails)
  | subclass (name : ApiName) (superclass : QName)
  | subclassTraitItem (name : ApiName) (details : SuperclassMethod)
  | externCppType (name : ApiName) (pod : Bool) (isOpaque : Bool)
deriving DecidableEq, Repr

namespace Api
variable {T S F : Type}

/-- `Api::name_info`: engine/src/conversion/api.rs:489-509. -/
def nameInfo : Api T S F → ApiName
  | forwardDeclaration n _ | opaqueTypedef n _ | concreteType n _ _ | stringConstructor n
  | function n _ _ | const n _ | typedef n _ _ _ | enum n _ | struct n _ _ | ctype n _
  | ignoredItem n _ _ | rustType n _ | rustFn n _ | rustSubclassFn n _ _ | subclass n _
  | subclassTraitItem n _ | externCppType n _ _ => n

/-- `Api::name`: engine/src/conversion/api.rs:517-519. -/
def name (a : Api T S F) : QName := a.nameInfo.name

/-- `Api::cpp_name`: engine/src/conversion/api.rs:523-525. -/
def cppName (a : Api T S F) : Option String := a.nameInfo.cppName

/-- Whether this is the `IgnoredItem` variant (`matches!(api, Api::IgnoredItem { .. })`). -/
def isIgnored : Api T S F → Bool
  | ignoredItem .. => true
  | _ => false

/-- `Api::discard_duplicates`: engine/src/conversion/api.rs:535-537. -/
def discardDuplicates (a : Api T S F) : Bool := a.isIgnored

end Api

/-- `NullPhase`: engine/src/conversion/api.rs:200-206. -/
abbrev NullApi := Api Unit Unit Unit
/-- `Api<TypedefPhase>`: engine/src/conversion/analysis/tdef.rs. -/
abbrev TypedefApi := Api TypedefAnalysis Unit Unit
/-- `Api<PodPhase>`: engine/src/conversion/analysis/pod/mod.rs:65-69. -/
abbrev PodApi := Api TypedefAnalysis PodAnalysis Unit
/-- `Api<FnPrePhase1>`: engine/src/conversion/analysis/fun/mod.rs:227-231. -/
abbrev FnPre1Api := Api TypedefAnalysis PodAnalysis FnAnalysis
/-- `Api<FnPrePhase2>`: engine/src/conversion/analysis/fun/mod.rs:238-242. -/
abbrev FnPre2Api := Api TypedefAnalysis PodAndConstructorAnalysis FnAnalysis
/-- `Api<FnPhase>`: engine/src/conversion/analysis/fun/mod.rs:272-276. -/
abbrev FnApi := Api TypedefAnalysis PodAndDepAnalysis FnAnalysis

end Verif
