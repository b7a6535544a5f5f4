import Verif.TypeToCpp
import Verif.Dec

/-!
# The type converter

engine/src/conversion/analysis/type_converter.rs, which turns the types bindgen writes into the types
put into the `cxx::bridge`, and the parts of engine/src/conversion/type_helpers.rs it uses.

Simplifications: generic arguments are types (lifetimes, constants and bindings, which bindgen does not
write, are not represented); an empty pair of angle brackets is not distinguished from none; sets of
names are lists of which only membership matters; texts in errors which quote a type are left out.
-/

set_option autoImplicit false

namespace Verif

/-- What a conversion ends with. `outOfFuel` is not an outcome of the Rust code: the model's recursion
is bounded by a number, and this says the number was too small (see `convert_fuel_mono`). -/
inductive CRes (α : Type) where
  | ok (a : α)
  | err (e : Err)
  | panic
  | outOfFuel
deriving DecidableEq, Repr

/-- The `?` operator. -/
def CRes.bind {α β : Type} (r : CRes α) (f : α → CRes β) : CRes β :=
  match r with
  | .ok a => f a
  | .err e => .err e
  | .panic => .panic
  | .outOfFuel => .outOfFuel

/-- The `concrete_templates` field of `TypeConverter`
(engine/src/conversion/analysis/type_converter.rs:115), the only field which changes: the C++ spelling
of each template instantiation met so far, with the name it was given. -/
abbrev Concretes := AMap String QName

/-- The `?` operator when `concrete_templates` is passed on. What was registered stays registered when
an error is returned. -/
def thenDo {α β : Type} (r : Concretes × CRes α) (f : Concretes → α → Concretes × CRes β) :
    Concretes × CRes β :=
  match r with
  | (s, .ok a) => f s a
  | (s, .err e) => (s, .err e)
  | (s, .panic) => (s, .panic)
  | (s, .outOfFuel) => (s, .outOfFuel)

/-- `Annotated`: engine/src/conversion/analysis/type_converter.rs:47-52. -/
structure Annotated (α : Type) where
  ty : α
  deps : List QName
  extra : List NullApi := []
  kind : ConvKind
deriving DecidableEq, Repr

/-- `TypeConversionContext`: engine/src/conversion/analysis/type_converter.rs:86-91. -/
inductive ConvCtx where
  | withinReference
  | withinStructField (params : List Ident)
  | withinContainer
  | outerType
deriving DecidableEq, Repr

/-- `allow_instantiation_of_forward_declaration`:
engine/src/conversion/analysis/type_converter.rs:94-96. -/
def ConvCtx.allowsForward : ConvCtx → Bool
  | .withinReference => true
  | _ => false

/-- `allowed_generic_type`: engine/src/conversion/analysis/type_converter.rs:97-101. -/
def ConvCtx.allowedGeneric (c : ConvCtx) (id : Ident) : Bool :=
  match c with
  | .withinStructField ps => !(ps.contains id)
  | _ => true

/-- The fields of `TypeConverter` which do not change:
engine/src/conversion/analysis/type_converter.rs:112-120. -/
structure ConvEnv where
  typesFound : List QName := []
  typedefs : AMap QName Ty := []
  forward : List QName := []
  ignored : List QName := []
  cfg : Config := {}
  names : CppNameMap := []

/-! ## Building a converter -/

/-- `find_types`: engine/src/conversion/analysis/type_converter.rs:746-769. -/
def findTypes {T S F : Type} (apis : List (Api T S F)) : List QName :=
  apis.filterMap fun a =>
    match a with
    | .forwardDeclaration .. | .opaqueTypedef .. | .concreteType .. | .typedef .. | .enum ..
    | .struct .. | .subclass .. | .externCppType .. | .rustType .. => some a.name
    | _ => none

/-- `find_typedefs`: engine/src/conversion/analysis/type_converter.rs:654-667. `target` is
`TypedefTarget::get_target` (727-744). -/
def findTypedefs {T S F : Type} (target : T → Option Ty) (apis : List (Api T S F)) : AMap QName Ty :=
  apis.foldl (init := []) fun m a =>
    match a with
    | .typedef n _ _ an => match target an with
      | some ty => AMap.insert m n.name ty
      | none => m
    | _ => m

/-- `find_concrete_templates`: engine/src/conversion/analysis/type_converter.rs:669-680. -/
def findConcretes {T S F : Type} (apis : List (Api T S F)) : Concretes :=
  apis.foldl (init := []) fun m a =>
    match a with
    | .concreteType n _ cpp => AMap.insert m cpp n.name
    | _ => m

/-- `find_incomplete_types`: engine/src/conversion/analysis/type_converter.rs:682-694. -/
def findIncomplete {T S F : Type} (apis : List (Api T S F)) : List QName :=
  apis.filterMap fun a =>
    match a with
    | .forwardDeclaration n _ => some n.name
    | .opaqueTypedef n true => some n.name
    | _ => none

/-- `find_ignored_types`: engine/src/conversion/analysis/type_converter.rs:696-704. -/
def findIgnored {T S F : Type} (apis : List (Api T S F)) : List QName :=
  apis.filterMap fun a =>
    match a with
    | .ignoredItem n _ _ => some n.name
    | _ => none

/-- `TypeConverter::new`: engine/src/conversion/analysis/type_converter.rs:123-136. -/
def ConvEnv.ofApis {T S F : Type} (target : T → Option Ty) (cfg : Config) (apis : List (Api T S F)) :
    ConvEnv × Concretes :=
  ({ typesFound := findTypes apis
     typedefs := findTypedefs target apis
     forward := findIncomplete apis
     ignored := findIgnored apis
     cfg := cfg
     names := CppNameMap.ofApis apis }, findConcretes apis)

/-! ## Markers -/

/-- `unwrap_bindgen_marker`: engine/src/conversion/type_helpers.rs:78-93. (Generic arguments are
represented only on the last segment, so a marker is a path of one segment.) -/
def unwrapMarker (m : String) (segs : List String) (args : List Ty) : Option Ty :=
  if segs = [m] then args.head? else none

/-- `unwrap_reference`: engine/src/conversion/type_helpers.rs:60-66,95-102, as mutability and
pointee. -/
def unwrapReference (segs : List String) (args : List Ty) (rvalue : Bool) : Option (Bool × Ty) :=
  match unwrapMarker (if rvalue then "__bindgen_marker_RValueReference" else "__bindgen_marker_Reference")
      segs args with
  | some (.ptr mu e) => some (mu, e)
  | _ => none

/-! ## Typedefs -/

/-- `resolve_typedef`, the loop: engine/src/conversion/analysis/type_converter.rs:487-510. -/
def resolveLoop (m : AMap QName Ty) : Nat → List QName → QName → Option Ty → CRes (Option Ty)
  | 0, _, _, _ => .outOfFuel
  | fuel + 1, enc, tn, prev =>
    match AMap.get? m tn with
    | some (.path segs args) =>
      match QName.ofTypePath segs with
      | none => .panic
      | some tn' =>
        if tn' ∈ enc then .err (.infinitelyRecursiveTypedef tn)
        else if segs.any fun s => startsWith s "_bindgen_mod" then .err .typedefToTypeInAnonymousNamespace
        else resolveLoop m fuel (tn' :: enc) tn' (some (.path segs args))
    | none => .ok prev
    | some t => .ok (some t)

/-- `resolve_typedef`: engine/src/conversion/analysis/type_converter.rs:480-511. The bound on the
number of rounds is never reached (`resolve_terminates`). -/
def resolveTypedef (m : AMap QName Ty) (tn : QName) : CRes (Option Ty) :=
  resolveLoop m (m.length + 1) [] tn none

/-! ## Names for template instantiations -/

/-- The characters kept in a synthetic name: engine/src/conversion/analysis/type_converter.rs:556. -/
def keptInIdent (c : Char) : Bool := c.isAlphanum || c = '_'

/-- `str::split('_')`. -/
def splitUnderscore : List Char → List (List Char)
  | [] => [[]]
  | c :: r =>
    if c = '_' then [] :: splitUnderscore r
    else
      match splitUnderscore r with
      | p :: ps => (c :: p) :: ps
      | [] => [[c]]

/-- The synthetic name before the check for duplicates:
engine/src/conversion/analysis/type_converter.rs:554-563. -/
def syntheticIdent (cpp : String) : String :=
  let replaced := cpp.toList.map (fun c => if keptInIdent c then c else '_') ++ "_AutocxxConcrete".toList
  joinWith "_" (((splitUnderscore replaced).filter (· ≠ [])).map String.ofList)

/-- The synthetic name after the check for duplicates:
engine/src/conversion/analysis/type_converter.rs:545,564-575. -/
def concreteIdent (st : Concretes) (cpp : String) : String :=
  let id := syntheticIdent cpp
  if st.any fun e => e.2.name = id then "AutocxxConcrete" ++ dec st.length else id

/-- `get_templated_typename`: engine/src/conversion/analysis/type_converter.rs:541-585. The API is the
new one to be added, if any. -/
def templatedTypename (names : CppNameMap) (st : Concretes) (rs : Ty) :
    Concretes × CRes (QName × Option NullApi) :=
  match names.typeToCpp rs with
  | .err e => (st, .err e)
  | .panic => (st, .panic)
  | .ok cpp =>
    match AMap.get? st cpp with
    | some tn => (st, .ok (tn, none))
    | none =>
      let id := concreteIdent st cpp
      if isIdentText id then
        (AMap.insert st cpp ⟨[], id⟩,
          .ok (⟨[], id⟩, some (.concreteType ⟨⟨[], id⟩, none⟩ (some rs) cpp)))
      else (st, .panic)

/-! ## Converting types -/

/-- Qualifying unqualified paths: engine/src/conversion/analysis/type_converter.rs:280-304. -/
def qualifyPath (env : ConvEnv) (ns : List String) (segs : List String) : CRes (List String) :=
  match segs with
  | [] => .panic
  | first :: _ =>
    if first = "root" ∨ first = "output" then .ok segs
    else
      match QName.ofTypePath segs with
      | none => .panic
      | some ty =>
        if isKnownType ty then .ok segs
        else if segs.length > 1 then .err (.unsupportedBuiltInType ty)
        else if ty ∈ env.typesFound then .ok segs
        else .ok ("output" :: ns ++ segs)

/-- The checks on the name as written: engine/src/conversion/analysis/type_converter.rs:306-312. -/
def checkTypeName (env : ConvEnv) (q : QName) : CRes Unit :=
  match validateIdentOkForCxx q.name with
  | .panic => .panic
  | .bad e => .err (.invalidIdent e)
  | .ok => if env.cfg.isOnBlocklist q.toCppName then .err (.blocked q) else .ok ()

/-- What is known about a path after its typedefs were followed: it is converted already, or it is a
path (with its name and the names met on the way). -/
inductive Resolved where
  | done (a : Annotated Ty)
  | path (segs : List String) (args : List Ty) (tn : QName) (deps : List QName)

/-- Following typedefs: engine/src/conversion/analysis/type_converter.rs:313-341. -/
def resolvePath (env : ConvEnv) (segs : List String) (args : List Ty) (q : QName) : CRes Resolved :=
  (resolveTypedef env.typedefs q).bind fun r =>
    match r with
    | none => .ok (.path segs args q [q])
    | some (.path s a) =>
      match QName.ofTypePath s with
      | none => .panic
      | some tn => .ok (.path s a tn [q, tn])
    | some (.ptr mu e) => .ok (.done { ty := .ptr mu e, deps := [q], kind := .pointer })
    | some t => .ok (.done { ty := t, deps := [q], kind := .regular })

/-- Replacing known types, and `root` by `output`:
engine/src/conversion/analysis/type_converter.rs:343-368. -/
def substitutePath (tn : QName) (segs : List String) : List String :=
  match considerSubstitution tn with
  | some s => s
  | none =>
    match segs with
    | first :: r => (if first = "root" then "output" else first) :: r
    | [] => []

/-- `convert_punctuated`: engine/src/conversion/analysis/type_converter.rs:449-478. `f` converts one
type. -/
def convertArgs (f : Concretes → Ty → Concretes × CRes (Annotated Ty)) :
    Concretes → List Ty → Concretes × CRes (Annotated (List Ty))
  | st, [] => (st, .ok { ty := [], deps := [], kind := .regular })
  | st, t :: r =>
    thenDo (f st t) fun st a =>
      thenDo (convertArgs f st r) fun st b =>
        (st, .ok { ty := a.ty :: b.ty, deps := a.deps ++ b.deps, extra := a.extra ++ b.extra,
                   kind := .regular })

/-- `confirm_inner_type_is_acceptable_generic_payload`:
engine/src/conversion/analysis/type_converter.rs:587-652. -/
def confirmPayload (env : ConvEnv) (desc : QName) (b : CxxGenericType) : List Ty → CRes ConvKind
  | [] => .ok .regular
  | .path segs args :: r =>
    match QName.ofTypePath segs with
    | none => .panic
    | some q =>
      if b ≠ .rust ∧ q ∈ env.forward then .err (.typeContainingForwardDeclaration q)
      else
        match b with
        | .rust =>
          if q.ns ≠ [] then .err (.rustTypeWithAPath q)
          else if !env.cfg.isRustType q.name then .err (.boxContainingNonRustType q)
          else if env.cfg.isSubclassHolder q.name then .ok (.subclassHolder q.name)
          else .ok .regular
        | .cppPtr =>
          if !permissibleWithinUniquePtr q then .err (.invalidTypeForCppPtr q)
          else confirmPayload env desc b r
        | .cppVector =>
          if !permissibleWithinVector q then .err (.invalidTypeForCppVector q)
          else if args ≠ [] then .err .genericsWithinVector
          else confirmPayload env desc b r
        | .not => confirmPayload env desc b r
  | _ :: _ => .err (.templatedTypeContainingNonPathArg desc)

/-- Whether a generic argument is a type parameter of the surrounding struct:
engine/src/conversion/analysis/type_converter.rs:401-418. -/
def isTypeParam (ctx : ConvCtx) : Ty → Bool
  | .path [id] _ => !ctx.allowedGeneric id
  | _ => false

/-- The treatment of generic arguments: engine/src/conversion/analysis/type_converter.rs:370-439.
`f` converts one type within a container. The extra APIs of the arguments of a container are
dropped (384-397). -/
def convertGeneric (f : Concretes → Ty → Concretes × CRes (Annotated Ty)) (env : ConvEnv) (ctx : ConvCtx)
    (st : Concretes) (tn : QName) (segs : List String) (args : List Ty) (deps : List QName) :
    Concretes × CRes (Annotated Ty) :=
  match args with
  | [] => (st, .ok { ty := .path segs [], deps := deps, kind := .regular })
  | _ :: _ =>
    match cxxGenericBehavior tn with
    | .not =>
      if args.any (isTypeParam ctx) then (st, .err .referringToGenericTypeParam)
      else
        match QName.ofTypePath segs with
        | none => (st, .panic)
        | some qn =>
          if qn ∈ env.ignored then (st, .err .concreteVersionOfIgnoredTemplate)
          else
            thenDo (templatedTypename env.names st (.path segs args)) fun st r =>
              (st, .ok { ty := .path r.1.toTypePath [], deps := deps ++ [r.1], extra := r.2.toList,
                         kind := .regular })
    | b =>
      thenDo (convertArgs f st args) fun st inner =>
        match confirmPayload env tn b inner.ty with
        | .ok k => (st, .ok { ty := .path segs inner.ty, deps := deps ++ inner.deps, kind := k })
        | .err e => (st, .err e)
        | .panic => (st, .panic)
        | .outOfFuel => (st, .outOfFuel)

/-- `convert_type_path_which_is_not_a_reference`:
engine/src/conversion/analysis/type_converter.rs:274-440. -/
def convertPlainPath (f : Concretes → Ty → Concretes × CRes (Annotated Ty)) (env : ConvEnv)
    (ns : List String) (ctx : ConvCtx) (st : Concretes) (segs : List String) (args : List Ty) :
    Concretes × CRes (Annotated Ty) :=
  thenDo (st, qualifyPath env ns segs) fun st segs =>
    match QName.ofTypePath segs with
    | none => (st, .panic)
    | some q =>
      thenDo (st, checkTypeName env q) fun st _ =>
        thenDo (st, resolvePath env segs args q) fun st r =>
          match r with
          | .done a => (st, .ok a)
          | .path segs args tn deps => convertGeneric f env ctx st tn (substitutePath tn segs) args deps

/-- The end of `convert_type_path`, for an actual path:
engine/src/conversion/analysis/type_converter.rs:240-270. -/
def finishPath (env : ConvEnv) (ctx : ConvCtx) (a : Annotated Ty) : CRes (Annotated Ty) :=
  match a.ty with
  | .path segs _ =>
    match QName.ofTypePath segs with
    | none => .panic
    | some q =>
      if !ctx.allowsForward ∧ q ∈ env.forward then .err (.typeContainingForwardDeclaration q)
      else if shouldDereferenceInCpp q then
        .ok { a with ty := .ref false none (.path ["str"] []), kind := .reference }
      else .ok a
  | _ => .ok a

/-- `ensure_pointee_is_valid`: engine/src/conversion/analysis/type_converter.rs:530-539. -/
def ensurePointee : Ty → CRes Unit
  | .path .. => .ok ()
  | .array .. => .err .invalidArrayPointee
  | .ptr .. => .err .invalidPointerPointee
  | _ => .err .invalidPointee

/-- `convert_type` (engine/src/conversion/analysis/type_converter.rs:147-185) with `convert_type_path`
(187-272) and `convert_ptr` (513-528). The converter recurses into the arguments of the target of a
typedef, so the recursion is not on the type alone: the first argument bounds its depth. -/
def convertType (env : ConvEnv) (ns : List String) : Nat → ConvCtx → Concretes → Ty →
    Concretes × CRes (Annotated Ty)
  | 0, _, st, _ => (st, .outOfFuel)
  | fuel + 1, ctx, st, ty =>
    match ty with
    | .path segs args =>
      match unwrapMarker "__bindgen_marker_UnusedTemplateParam" segs args with
      | some t => convertType env ns fuel ctx st t
      | none =>
        match unwrapMarker "__bindgen_marker_Opaque" segs args with
        | some t => convertType env ns fuel ctx st t
        | none =>
          match unwrapReference segs args false with
          | some (mu, e) =>
            thenDo (convertType env ns fuel .withinReference st e) fun st a =>
              (st, .ok { a with
                ty := if mu then .path ["core", "pin", "Pin"] [.ref true none a.ty] else .ref false none a.ty
                kind := if mu then .mutableReference else .reference })
          | none =>
            match unwrapReference segs args true with
            | some (mu, e) =>
              thenDo (st, ensurePointee e) fun st _ =>
                thenDo (convertType env ns fuel .withinReference st e) fun st a =>
                  (st, .ok { a with ty := .ptr mu a.ty, kind := .rvalueReference })
            | none =>
              thenDo (convertPlainPath (convertType env ns fuel .withinContainer) env ns ctx st segs args)
                fun st a => (st, finishPath env ctx a)
    | .ref mu lt e =>
      thenDo (convertType env ns fuel .withinReference st e) fun st a =>
        (st, .ok { a with ty := .ref mu lt a.ty, kind := .reference })
    | .array e n =>
      thenDo (convertType env ns fuel .withinReference st e) fun st a =>
        (st, .ok { a with ty := .array a.ty n, kind := .regular })
    | .ptr mu e =>
      thenDo (st, ensurePointee e) fun st _ =>
        thenDo (convertType env ns fuel .withinReference st e) fun st a =>
          (st, .ok { a with ty := .ptr mu a.ty, kind := .pointer })
    | .other _ => (st, .err .unknownType)

/-- `add_analysis`: engine/src/conversion/analysis/type_converter.rs:712-726. `none` is a panic. -/
def addAnalysis {T S F : Type} : NullApi → Option (Api T S F)
  | .concreteType n rs cpp => some (.concreteType n rs cpp)
  | .ignoredItem n e c => some (.ignoredItem n e c)
  | _ => none

end Verif
