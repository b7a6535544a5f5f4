import Verif.TypeConv
import Verif.ByValue

/-!
# The passes before function analysis

Typedef targets (engine/src/conversion/analysis/tdef.rs), POD analysis
(engine/src/conversion/analysis/pod/mod.rs), hopeless typedefs
(engine/src/conversion/analysis/replace_hopeless_typedef_targets.rs), casts
(engine/src/conversion/analysis/casts.rs) and allocators
(engine/src/conversion/analysis/allocators.rs).
-/

set_option autoImplicit false

namespace Verif

/-- What becomes of a pass which calls the type converter: it ends, panics, or does not end. -/
inductive PassRun (α : Type) where
  | done (a : α)
  | panic
  | diverges
deriving DecidableEq, Repr

/-- Going on with a result. -/
def PassRun.bind {α β : Type} (r : PassRun α) (f : α → PassRun β) : PassRun β :=
  match r with
  | .done a => f a
  | .panic => .panic
  | .diverges => .diverges

/-- The result of the type converter, its errors being values. -/
def CRes.toRun {α : Type} : CRes α → PassRun (Except Err α)
  | .ok a => .done (.ok a)
  | .err e => .done (.error e)
  | .panic => .panic
  | .outOfFuel => .diverges

/-- What `ParseCallbackResults` (engine/src/parse_callbacks.rs:110-224) is asked by these passes. -/
structure Attrs where
  discardsTemplateParam : QName → Bool
  cppVisibility : QName → CppVisibility

/-- `check_for_fatal_attrs`: engine/src/conversion/mod.rs:281-301. -/
def checkForFatalAttrs (attrs : Attrs) (n : QName) : Except ErrWithCtx Unit :=
  if attrs.discardsTemplateParam n then .error ⟨.unusedTemplateParam, some (.newForItem n.name)⟩
  else if attrs.cppVisibility n ≠ .pub then .error ⟨.nonPublicNestedType, some (.newForItem n.name)⟩
  else .ok ()

/-- The loop of `convert_apis` (engine/src/conversion/error_reporter.rs:56-173) for a closure which may
panic: the items pushed to the output. -/
def runPass {σ T S F T' S' F' : Type}
    (f : σ → Api T S F → σ × PassRun (Except ErrWithCtx (List (Api T' S' F')))) :
    σ → List (Api T S F) → σ × PassRun (List (Api T' S' F'))
  | s, [] => (s, .done [])
  | s, a :: l =>
    match f s a with
    | (s, .panic) => (s, .panic)
    | (s, .diverges) => (s, .diverges)
    | (s, .done r) =>
      match runPass f s l with
      | (s, .done l') => (s, .done (apiOrError a.nameInfo r ++ l'))
      | (s, .panic) => (s, .panic)
      | (s, .diverges) => (s, .diverges)

/-- What the typedef and POD passes keep between items: the converter's table of instantiations and the
new APIs it declared. -/
structure PassState where
  concretes : Concretes
  extra : ApiVec Unit Unit Unit := {}

/-! ## Typedef targets -/

/-- `get_replacement_typedef`: engine/src/conversion/analysis/tdef.rs:86-133. -/
def getReplacementTypedef (env : ConvEnv) (fuel : Nat) (attrs : Attrs) (s : PassState) (name : ApiName)
    (item : TypedefItem) (old : Option QName) : PassState × PassRun (Except ErrWithCtx TypedefApi) :=
  if item.generics ≠ [] then
    (s, .done (.error ⟨.typedefTakesGenericParameters, some (.newForItem name.name.name)⟩))
  else
    match checkForFatalAttrs attrs name.name with
    | .error e => (s, .done (.error e))
    | .ok () =>
      match convertType env name.name.ns fuel .withinReference s.concretes item.ty with
      | (st, r) =>
        match r.toRun with
        | .panic => ({ s with concretes := st }, .panic)
        | .diverges => ({ s with concretes := st }, .diverges)
        | .done (.error e) =>
          ({ s with concretes := st }, .done (.error ⟨e, some (.newForItem name.name.name)⟩))
        | .done (.ok a) =>
          match a.ty with
          | .path segs _ =>
            match QName.ofTypePath segs with
            | none => ({ s with concretes := st }, .panic)
            | some q =>
              if q = name.name then
                ({ s with concretes := st },
                  .done (.error ⟨.infinitelyRecursiveTypedef name.name, some (.newForItem name.name.name)⟩))
              else
                ({ concretes := st, extra := s.extra.extend a.extra },
                  .done (.ok (.typedef name item old { target := a.ty, deps := a.deps })))
          | _ =>
            ({ concretes := st, extra := s.extra.extend a.extra },
              .done (.ok (.typedef name item old { target := a.ty, deps := a.deps })))

/-- The closures given to `convert_apis` in `convert_typedef_targets`:
engine/src/conversion/analysis/tdef.rs:54-81. -/
def tdefStep (env : ConvEnv) (fuel : Nat) (attrs : Attrs) (s : PassState) :
    NullApi → PassState × PassRun (Except ErrWithCtx (List TypedefApi))
  | .typedef n i o _ =>
    if i.isUse then (s, .done (.ok [.typedef n i o { target := i.ty, deps := [] }]))
    else
      match getReplacementTypedef env fuel attrs s n i o with
      | (s, .done (.ok a)) => (s, .done (.ok [a]))
      | (s, .done (.error e)) => (s, .done (.error e))
      | (s, .panic) => (s, .panic)
      | (s, .diverges) => (s, .diverges)
  | .concreteType n r d => (s, .done (.ok [.concreteType n r d]))
  | .forwardDeclaration n e => (s, .done (.ok [.forwardDeclaration n e]))
  | .opaqueTypedef n f => (s, .done (.ok [.opaqueTypedef n f]))
  | .stringConstructor n => (s, .done (.ok [.stringConstructor n]))
  | .const n i => (s, .done (.ok [.const n i]))
  | .ctype n t => (s, .done (.ok [.ctype n t]))
  | .rustType n p => (s, .done (.ok [.rustType n p]))
  | .rustFn n d => (s, .done (.ok [.rustFn n d]))
  | .rustSubclassFn n sub d => (s, .done (.ok [.rustSubclassFn n sub d]))
  | .subclass n sup => (s, .done (.ok [.subclass n sup]))
  | .ignoredItem n e c => (s, .done (.ok [.ignoredItem n e c]))
  | .subclassTraitItem n d => (s, .done (.ok [.subclassTraitItem n d]))
  | .externCppType n p o => (s, .done (.ok [.externCppType n p o]))
  | .enum n i => (s, .done (.ok [.enum n i]))
  | .function n f a => (s, .done (.ok [.function n f a]))
  | .struct n d a => (s, .done (.ok [.struct n d a]))

/-- `add_analysis` applied to each of the new APIs. -/
def addAnalyses {T S F : Type} (l : List NullApi) : PassRun (List (Api T S F)) :=
  match l.mapM addAnalysis with
  | some l => .done l
  | none => .panic

/-- `convert_typedef_targets`: engine/src/conversion/analysis/tdef.rs:46-84. No typedef has a target yet,
so the converter resolves none (engine/src/conversion/analysis/type_converter.rs:731-735). -/
def convertTypedefTargets (fuel : Nat) (cfg : Config) (attrs : Attrs) (apis : ApiVec Unit Unit Unit) :
    PassRun (ApiVec TypedefAnalysis Unit Unit) :=
  let (env, st) := ConvEnv.ofApis (fun _ => none) cfg apis.apis
  let (s, r) := runPass (tdefStep env fuel attrs) { concretes := st } apis.apis
  r.bind fun l => (addAnalyses s.extra.apis).bind fun e => .done (((ApiVec.fromIter l)).extend e)

/-! ## POD analysis -/

/-- `get_bases`: engine/src/conversion/analysis/pod/mod.rs:274-289. `none` is a panic in
`from_type_path`. -/
def getBases : List (Ident × Bool × Ty) → Option (AMap QName Bool)
  | fs => fs.foldl (init := some []) fun m f =>
    match f.2.2 with
    | .path segs _ =>
      if startsWith f.1 "_base" then
        m.bind fun m => (QName.ofTypePath segs).map fun q => m.insert q f.2.1
      else m
    | _ => m

/-- What `get_struct_field_types` collects. -/
structure Fields where
  deps : List QName := []
  definitionDeps : List QName := []
  info : List FieldInfo := []
  errs : List Err := []
deriving DecidableEq, Repr

/-- The fields skipped as bases or padding: engine/src/conversion/analysis/pod/mod.rs:236-246. -/
def isBaseOrPadding (id : Ident) : Bool := startsWith id "_base" || startsWith id "__bindgen_padding"

/-- The loop of `get_struct_field_types`: engine/src/conversion/analysis/pod/mod.rs:230-270. -/
def fieldTypes (env : ConvEnv) (fuel : Nat) (ns : List String) (params : List Ident) :
    PassState → Fields → List (Ident × Bool × Ty) → PassState × PassRun Fields
  | s, acc, [] => (s, .done acc)
  | s, acc, (id, _, ty) :: l =>
    match convertType env ns fuel (.withinStructField params) s.concretes ty with
    | (st, r) =>
      match r.toRun with
      | .panic => ({ s with concretes := st }, .panic)
      | .diverges => ({ s with concretes := st }, .diverges)
      | .done (.error e) =>
        fieldTypes env fuel ns params { s with concretes := st } { acc with errs := acc.errs ++ [e] } l
      | .done (.ok a) =>
        let s' : PassState := { concretes := st, extra := s.extra.extend a.extra }
        if isBaseOrPadding id then fieldTypes env fuel ns params s' acc l
        else
          let info := acc.info ++ [⟨a.ty, a.kind, id = "_bindgen_opaque_blob"⟩]
          let deps := a.deps.foldl setInsert acc.deps
          match a.ty with
          | .path segs _ =>
            match QName.ofTypePath segs with
            | none => (s', .panic)
            | some q =>
              fieldTypes env fuel ns params s'
                { acc with deps := deps, definitionDeps := setInsert acc.definitionDeps q, info := info } l
          | _ => fieldTypes env fuel ns params s' { acc with deps := deps, info := info } l

/-- The kind of a type: engine/src/conversion/analysis/pod/mod.rs:165-187. -/
def structKind (pod : ByValue) (name : ApiName) (d : StructDetails) (fs : Fields) : Except ErrWithCtx TypeKind :=
  if fs.info.any (·.bindgenOpaqueData) then .ok .opaque
  else if pod.isPod name.name then
    if d.hasRvalueReferenceFields then .error ⟨.rvalueReferenceField, some (.newForItem name.name.name)⟩
    else
      match fs.errs with
      | e :: _ => .error ⟨e, some (.newForItem name.name.name)⟩
      | [] => .ok .pod
  else .ok .nonPod

/-- The bases casts are made for: engine/src/conversion/analysis/pod/mod.rs:188-194. `none` is the panic of
`is_on_allowlist`. -/
def castableBases (hash : Config → Nat) (cfg : Config) : AMap QName Bool → Option (List QName)
  | [] => some []
  | (b, isPublic) :: l =>
    if isPublic then
      (cfg.isOnAllowlist hash b.toCppName).bind fun ok =>
        (castableBases hash cfg l).map fun r => if ok then b :: r else r
    else castableBases hash cfg l

/-- `analyze_struct`: engine/src/conversion/analysis/pod/mod.rs:142-213. -/
def analyzeStruct (env : ConvEnv) (fuel : Nat) (hash : Config → Nat) (attrs : Attrs) (pod : ByValue)
    (s : PassState) (name : ApiName) (d : StructDetails) :
    PassState × PassRun (Except ErrWithCtx (List PodApi)) :=
  match checkForFatalAttrs attrs name.name with
  | .error e => (s, .done (.error e))
  | .ok () =>
    match getBases d.fields with
    | none => (s, .panic)
    | some bases =>
      match fieldTypes env fuel name.name.ns d.generics s {} d.fields with
      | (s, .panic) => (s, .panic)
      | (s, .diverges) => (s, .diverges)
      | (s, .done fs) =>
        match structKind pod name d fs with
        | .error e => (s, .done (.error e))
        | .ok kind =>
          match castableBases hash env.cfg bases with
          | none => (s, .panic)
          | some castable =>
            (s, .done (.ok [.struct name d
              { kind := kind
                bases := bases.keys
                castableBases := castable
                fieldDeps := fs.deps
                fieldDefinitionDeps := fs.definitionDeps
                fieldInfo := fs.info
                numGenerics := d.generics.length
                inAnonymousNamespace := name.name.ns.any fun n => startsWith n "_bindgen_mod" }]))

/-- `analyze_enum`: engine/src/conversion/analysis/pod/mod.rs:133-140. -/
def analyzeEnum (attrs : Attrs) (name : ApiName) (item : String) : Except ErrWithCtx (List PodApi) :=
  match checkForFatalAttrs attrs name.name with
  | .error e => .error e
  | .ok () => .ok [.enum name item]

/-- The closures given to `convert_apis` in `analyze_pod_apis`:
engine/src/conversion/analysis/pod/mod.rs:89-106. -/
def podStep (env : ConvEnv) (fuel : Nat) (hash : Config → Nat) (attrs : Attrs) (pod : ByValue)
    (s : PassState) : TypedefApi → PassState × PassRun (Except ErrWithCtx (List PodApi))
  | .struct n d _ => analyzeStruct env fuel hash attrs pod s n d
  | .enum n i => (s, .done (analyzeEnum attrs n i))
  | .typedef n i o a => (s, .done (.ok [.typedef n i o a]))
  | .concreteType n r d => (s, .done (.ok [.concreteType n r d]))
  | .forwardDeclaration n e => (s, .done (.ok [.forwardDeclaration n e]))
  | .opaqueTypedef n f => (s, .done (.ok [.opaqueTypedef n f]))
  | .stringConstructor n => (s, .done (.ok [.stringConstructor n]))
  | .const n i => (s, .done (.ok [.const n i]))
  | .ctype n t => (s, .done (.ok [.ctype n t]))
  | .rustType n p => (s, .done (.ok [.rustType n p]))
  | .rustFn n d => (s, .done (.ok [.rustFn n d]))
  | .rustSubclassFn n sub d => (s, .done (.ok [.rustSubclassFn n sub d]))
  | .subclass n sup => (s, .done (.ok [.subclass n sup]))
  | .ignoredItem n e c => (s, .done (.ok [.ignoredItem n e c]))
  | .subclassTraitItem n d => (s, .done (.ok [.subclassTraitItem n d]))
  | .externCppType n p o => (s, .done (.ok [.externCppType n p o]))
  | .function n f a => (s, .done (.ok [.function n f a]))

/-- `analyze_pod_apis`: engine/src/conversion/analysis/pod/mod.rs:76-131. The new APIs are only
instantiations (`add_analysis` panics on anything else), which the second round (109-129) passes through. -/
def analyzePodApis (fuel : Nat) (hash : Config → Nat) (cfg : Config) (attrs : Attrs)
    (apis : ApiVec TypedefAnalysis Unit Unit) : PassRun (Except String (ApiVec TypedefAnalysis PodAnalysis Unit)) :=
  match byValueFromApis apis.apis cfg with
  | .panic => .panic
  | .loops => .diverges
  | .err msg => .done (.error msg)
  | .ok pod =>
    let (env, st) := ConvEnv.ofApis (fun a : TypedefAnalysis => some a.target) cfg apis.apis
    let (s, r) := runPass (podStep env fuel hash attrs pod) { concretes := st } apis.apis
    r.bind fun l => (addAnalyses s.extra.apis).bind fun e =>
      .done (.ok ((ApiVec.fromIter l).extend (ApiVec.fromIter e).apis))

/-! ## Hopeless typedefs -/

/-- `CppOriginalName::is_nested`, on the C++ name in effect: engine/src/parse_callbacks.rs:36-41. -/
def effectiveNameNested (n : ApiName) : Bool := containsStr n.effectiveCppName "::"

/-- `replace_hopeless_typedef_targets`, one item:
engine/src/conversion/analysis/replace_hopeless_typedef_targets.rs:51-93. -/
def replaceHopeless (cfg : Config) (ignored errored : List QName) : PodApi → PodApi
  | .typedef n i o a =>
    if a.deps.any (· ∈ ignored) then
      if effectiveNameNested n then .ignoredItem n .nestedOpaqueTypedef (some (.newForItem n.name.name))
      else .opaqueTypedef n (!(cfg.instantiable.contains n.name.toCppName))
    else if a.deps.any (· ∈ errored) then .opaqueTypedef n true
    else .typedef n i o a
  | .forwardDeclaration n (some e) => .ignoredItem n e.err e.ctx
  | a => a

/-- `ignored_types`: engine/src/conversion/analysis/replace_hopeless_typedef_targets.rs:31-38. -/
def ignoredTypes (apis : List PodApi) : List QName := apis.filterMap fun a => match a with
  | .ignoredItem n _ _ => some n.name
  | _ => none

/-- `ignored_forward_declarations`:
engine/src/conversion/analysis/replace_hopeless_typedef_targets.rs:39-46. -/
def ignoredForwardDeclarations (apis : List PodApi) : List QName := apis.filterMap fun a => match a with
  | .forwardDeclaration n (some _) => some n.name
  | _ => none

/-- `replace_hopeless_typedef_targets`:
engine/src/conversion/analysis/replace_hopeless_typedef_targets.rs:27-95. -/
def replaceHopelessTypedefTargets (cfg : Config) (apis : ApiVec TypedefAnalysis PodAnalysis Unit) :
    ApiVec TypedefAnalysis PodAnalysis Unit :=
  ApiVec.fromIter (apis.apis.map
    (replaceHopeless cfg (ignoredTypes apis.apis) (ignoredForwardDeclarations apis.apis)))

/-! ## Casts -/

/-- `name_for_cast` for casts from const to const (the only ones made,
engine/src/conversion/analysis/casts.rs:24,64-75): engine/src/conversion/analysis/casts.rs:122-140. -/
def nameForCast (derived base : QName) : QName := ⟨derived.ns, "cast_" ++ derived.name ++ "_to_" ++ base.name⟩

/-- `create_cast`: engine/src/conversion/analysis/casts.rs:77-120. -/
def createCast (derived base : QName) : PodApi :=
  let n := nameForCast derived base
  .function (.ofQName n)
    { provenance := .synthesizedOther
      ident := n.name
      inputs := [.typed "this" (.ptr false (.path derived.toTypePath []))]
      output := some (.path ["__bindgen_marker_Reference"] [.ptr false (.path base.toTypePath [])])
      selfTy := some derived
      addToTrait := some (.cast base .constToConst)
      syntheticCpp := some (.cast, .function) } ()

/-- `add_casts`: engine/src/conversion/analysis/casts.rs:34-61. -/
def addCasts (apis : ApiVec TypedefAnalysis PodAnalysis Unit) : ApiVec TypedefAnalysis PodAnalysis Unit :=
  ApiVec.fromIter (apis.apis.flatMap fun a => match a with
    | .struct n d an => an.castableBases.map (createCast n.name) ++ [.struct n d an]
    | a => [a])

/-! ## Allocators -/

/-- `get_alloc_name`: engine/src/conversion/analysis/allocators.rs:98-100,106-110. -/
def allocName (q : QName) : QName := ⟨q.ns, q.name ++ "_autocxx_alloc"⟩

/-- `get_free_name`: engine/src/conversion/analysis/allocators.rs:102-110. -/
def freeName (q : QName) : QName := ⟨q.ns, q.name ++ "_autocxx_free"⟩

/-- `create_alloc_and_free`: engine/src/conversion/analysis/allocators.rs:43-96. -/
def createAllocAndFree (q : QName) : List PodApi :=
  [.function (.ofQName (allocName q))
    { provenance := .synthesizedOther
      ident := (allocName q).name
      output := some (.ptr true (.path q.toTypePath []))
      addToTrait := some (.allocUninitialized q)
      syntheticCpp := some (.allocUninitialized q, .function) } (),
   .function (.ofQName (freeName q))
    { provenance := .synthesizedOther
      ident := (freeName q).name
      inputs := [.typed "arg0" (.ptr true (.path q.toTypePath []))]
      addToTrait := some (.freeUninitialized q)
      syntheticCpp := some (.freeUninitialized q, .function) } ()]

/-- `create_alloc_and_frees`: engine/src/conversion/analysis/allocators.rs:27-41. -/
def createAllocAndFrees (apis : ApiVec TypedefAnalysis PodAnalysis Unit) :
    ApiVec TypedefAnalysis PodAnalysis Unit :=
  ApiVec.fromIter (apis.apis.flatMap fun a => match a with
    | .struct n d an => createAllocAndFree n.name ++ [.struct n d an]
    | .subclass n sup => createAllocAndFree n.cppPeer ++ [.subclass n sup]
    | a => [a])

/-! ## Constructor dependencies -/

/-- `find_important_constructors`, for one type:
engine/src/conversion/analysis/constructor_deps.rs:73-105. -/
def importantConstructors (apis : List FnPre2Api) (ty : QName) : List QName :=
  apis.filterMap fun a => match a with
    | .function n _ an =>
      match an.kind with
      | .traitMethod k implFor _ =>
        if (k = .alloc ∨ k = .dealloc ∨ k = .copyConstructor ∨ k = .moveConstructor) ∧ implFor = ty ∧
            an.ignoreReason = none then some n.name
        else none
      | _ => none
    | _ => none

/-- `decorate_struct`: engine/src/conversion/analysis/constructor_deps.rs:47-71. `taken` are the types
whose entry was removed from the map before. -/
def decorateStruct (apis : List FnPre2Api) (taken : List QName) (n : ApiName) (d : StructDetails)
    (a : PodAndConstructorAnalysis) : List QName × FnApi :=
  if a.pod.kind = .abstract ∨ a.pod.numGenerics > 0 then
    (taken, .struct n d { pod := a.pod, constructors := a.constructors })
  else if n.name ∈ taken then
    (taken, .struct n d { pod := a.pod, constructors := a.constructors })
  else
    (n.name :: taken, .struct n d
      { pod := a.pod, constructorAndAllocatorDeps := importantConstructors apis n.name,
        constructors := a.constructors })

/-- `decorate_types_with_constructor_deps`: engine/src/conversion/analysis/constructor_deps.rs:31-45. -/
def decorateTypes (apis : ApiVec TypedefAnalysis PodAndConstructorAnalysis FnAnalysis) :
    ApiVec TypedefAnalysis PodAndDepAnalysis FnAnalysis :=
  (convertApis (σ := List QName)
    { func := fun s n f a => (s, .ok [.function n f a])
      struct := fun s n d a =>
        let r := decorateStruct apis.apis s n d a
        (r.1, .ok [r.2])
      enum := fun s n i => (s, .ok [.enum n i])
      typedef := fun s n i o a => (s, .ok [.typedef n i o a]) }
    [] apis {}).2

end Verif
