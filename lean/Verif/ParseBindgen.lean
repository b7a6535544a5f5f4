import Verif.Callbacks
import Verif.Config
import Verif.Implicit
import Verif.Passes

/-!
# From bindgen's output to the list of APIs

engine/src/conversion/parse/parse_bindgen.rs, parse_foreign_mod.rs, extern_fun_signatures.rs and
engine/src/conversion/utilities.rs.
-/

set_option autoImplicit false

namespace Verif

/-! ## Signatures of Rust functions called from C++ -/

mutual
/-- A Rust type as written by the user, as far as `assemble_extern_fun_deps` looks at it. Generic arguments are kept
on the last segment only. -/
inductive RustTy where
  | path (segs : List String) (args : RustTyArgs)
  | ref (mutable : Bool) (elem : RustTy)
  | other
/-- `syn::PathArguments`; `angle` has the arguments between angle brackets. -/
inductive RustTyArgs where
  | none
  | angle (l : List RustTyArg)
  | parens
/-- `syn::GenericArgument`. -/
inductive RustTyArg where
  | ty (t : RustTy)
  | other
end

/-- A parameter: `self` in one of its short forms, or a pattern with a type. -/
inductive RustInput where
  | receiver
  | typed (t : RustTy)

/-- `syn::Signature`, as far as it is looked at. -/
structure RustFnSig where
  inputs : List RustInput
  output : Option RustTy

/-- `ConvertErrorFromRust`: engine/src/conversion/convert_error.rs, those of extern_fun_signatures.rs. -/
inductive RustErr where
  | requiresFullyQualifiedReceiver | pinnedReferencesRequired | unsupportedType | namespacesNotSupported
  | explicitSelf
deriving DecidableEq, Repr

/-- `add_path_to_deps`: engine/src/conversion/parse/extern_fun_signatures.rs:164-198. The outer `none` is the panic
of `from_type_path` on a path which is just `root` or `output`. -/
def addPathToDeps (segs : List String) (args : RustTyArgs) (deps : List QName) : Option (Except RustErr (List QName)) :=
  match args with
  | .angle _ | .parens => some (.error .unsupportedType)
  | .none =>
    (QName.ofTypePath segs).map fun q =>
      if q.ns ≠ [] then .error .namespacesNotSupported
      else if q.name = "Self" then .error .explicitSelf
      else .ok (setInsert deps q)

/-- `add_type_to_deps`: engine/src/conversion/parse/extern_fun_signatures.rs:54-162. -/
def addTypeToDeps (deps : List QName) : RustTy → Option (Except RustErr (List QName))
  | .ref true _ => some (.error .pinnedReferencesRequired)
  | .ref false (.path segs args) => addPathToDeps segs args deps
  | .ref false _ => some (.error .unsupportedType)
  | .path [id] (.angle args) =>
    if id = "Pin" then
      match args with
      | [.ty (.ref true (.path segs a))] => addPathToDeps segs a deps
      | _ => some (.error .unsupportedType)
    else if id = "Box" ∨ id = "Vec" then
      match args with
      | [.ty (.path segs a)] => addPathToDeps segs a deps
      | _ => some (.error .unsupportedType)
    else some (.error .unsupportedType)
  | .path [id] args => addPathToDeps [id] args deps
  | .path _ _ => some (.error .namespacesNotSupported)
  | .other => some (.error .unsupportedType)

/-- The loop over the parameters: engine/src/conversion/parse/extern_fun_signatures.rs:38-49. -/
def addInputsToDeps : List QName → List RustInput → Option (Except RustErr (List QName))
  | deps, [] => some (.ok deps)
  | _, .receiver :: _ => some (.error .requiresFullyQualifiedReceiver)
  | deps, .typed t :: l =>
    match addTypeToDeps deps t with
    | none => none
    | some (.error e) => some (.error e)
    | some (.ok deps) => addInputsToDeps deps l

/-- `assemble_extern_fun_deps`: engine/src/conversion/parse/extern_fun_signatures.rs:21-50. -/
def assembleExternFunDeps (sig : RustFnSig) : Option (Except RustErr (List QName)) :=
  match sig.output with
  | none => addInputsToDeps [] sig.inputs
  | some t =>
    match addTypeToDeps [] t with
    | none => none
    | some (.error e) => some (.error e)
    | some (.ok deps) => addInputsToDeps deps sig.inputs

/-! ## bindgen's output -/

/-- A function within `extern "C"`. -/
structure BindgenFn where
  ident : Ident
  inputs : List FnArg := []
  output : Option Ty := none
  variadic : Bool := false
deriving DecidableEq, Repr

/-- `syn::ForeignItem`. -/
inductive BindgenForeign where
  | fn (f : BindgenFn)
  | static (ident : Ident)
  | other
deriving DecidableEq, Repr

/-- A statement in a method bindgen wrote: a call of a path, or anything else. -/
inductive BindgenStmt where
  | call (path : List String)
  | other
deriving DecidableEq, Repr

/-- `syn::ImplItem`: a function with its statements, or anything else. -/
inductive BindgenImplItem where
  | fn (ident : Ident) (body : List BindgenStmt)
  | other
deriving DecidableEq, Repr

/-- `syn::UseTree`; `other` is a glob or a group. -/
inductive BindgenUse where
  | path (ident : Ident) (tree : BindgenUse)
  | name (ident : Ident)
  | rename (ident new : Ident)
  | other
deriving DecidableEq, Repr

/-- `syn::Item`, the kinds which are looked at. Fields of structs have names; `modDecl` is a module without content;
`other` is any other item, e.g. a union or a trait. -/
inductive BindgenItem where
  | foreignMod (items : List BindgenForeign)
  | struct (ident : Ident) (fields : List (Ident × Bool × Ty)) (generics : List Ident)
  | enum (ident : Ident) (item : String)
  | impl (selfTy : Ty) (items : List BindgenImplItem)
  | mod (ident : Ident) (items : List BindgenItem)
  | modDecl (ident : Ident)
  | use (tree : BindgenUse)
  | const (ident : Ident) (ty : Ty) (item : String)
  | type (ident : Ident) (ty : Ty) (generics : List Ident)
  | other
deriving Repr

/-! ## Functions and methods of one module -/

/-- The part of `ParseForeignMod` (engine/src/conversion/parse/parse_foreign_mod.rs:32-46) which changes. -/
structure ForeignState where
  funcs : List FuncToConvert := []
  receivers : AMap Ident QName := []
  ignored : ApiVec Unit Unit Unit := {}

/-- The function a foreign item stands for: engine/src/conversion/parse/parse_foreign_mod.rs:72-92. `none` is the panic
of the lookups when no root module was reported. -/
def foreignFn (cb : Callbacks) (ns : List String) (f : BindgenFn) : Option FuncToConvert :=
  let name := stripBindgenSuffix f.ident
  let q : QName := ⟨ns, name⟩
  match cb.virtualnessOf q, cb.cppVisibilityOf q, cb.specialMemberOf q, cb.originalName q, cb.explicitnessOf q with
  | some v, some vis, some sm, some orig, some ex =>
    some { provenance := .bindgen, ident := name, inputs := f.inputs, variadic := f.variadic, output := f.output,
           virtualness := v, cppVis := vis, specialMember := sm, originalName := orig, isDeleted := ex }
  | _, _, _, _, _ => none

/-- `parse_foreign_item` within `convert_foreign_mod_items`, item by item:
engine/src/conversion/parse/parse_foreign_mod.rs:58-104. `none` is a panic. The list is that of the new functions. -/
def foreignItems (cb : Callbacks) (ns : List String) :
    List BindgenForeign → List FuncToConvert → ApiVec Unit Unit Unit →
    Option (List FuncToConvert × ApiVec Unit Unit Unit)
  | [], fs, extra => some (fs, extra)
  | .fn f :: l, fs, extra =>
    match foreignFn cb ns f with
    | none => none
    | some f => foreignItems cb ns l (fs ++ [f]) extra
  | .static id :: l, fs, extra =>
    foreignItems cb ns l fs
      (reportAnyError (α := Unit) ns extra (.error ⟨.other "StaticData", some (.newForItem id)⟩)).1
  | .other :: l, fs, extra =>
    foreignItems cb ns l fs (reportAnyError (α := Unit) ns extra (.error ⟨.other "UnexpectedForeignItem", none⟩)).1

/-- `convert_foreign_mod_items`: engine/src/conversion/parse/parse_foreign_mod.rs:58-68. -/
def ForeignState.foreignMod (cb : Callbacks) (ns : List String) (s : ForeignState) (items : List BindgenForeign) :
    Option ForeignState :=
  (foreignItems cb ns items s.funcs {}).map fun (fs, extra) =>
    { s with funcs := fs, ignored := (s.ignored.append extra).1 }

/-- `get_called_function`: engine/src/conversion/parse/parse_foreign_mod.rs:155-163. -/
def getCalledFunction : List BindgenStmt → Option Ident
  | .call (s :: _) :: _ => some s
  | _ => none

/-- The name under which a method is recorded: engine/src/conversion/parse/parse_foreign_mod.rs:116-121. -/
def effectiveFunName (ident : Ident) (body : List BindgenStmt) : Ident :=
  stripBindgenSuffix ((getCalledFunction body).getD ident)

/-- The loop of `convert_impl_items`: engine/src/conversion/parse/parse_foreign_mod.rs:114-127. -/
def noteReceivers (q : QName) : AMap Ident QName → List BindgenImplItem → AMap Ident QName
  | m, [] => m
  | m, .fn id body :: l => noteReceivers q (m.insert (effectiveFunName id body) q) l
  | m, .other :: l => noteReceivers q m l

/-- `convert_impl_items`: engine/src/conversion/parse/parse_foreign_mod.rs:109-128. `none` is the panic for a path
without segments. -/
def ForeignState.implItems (ns : List String) (s : ForeignState) (selfTy : Ty) (items : List BindgenImplItem) :
    Option ForeignState :=
  match selfTy with
  | .path segs _ =>
    match segs.getLast? with
    | none => none
    | some id => some { s with receivers := noteReceivers ⟨ns, id⟩ s.receivers items }
  | _ => some s

/-- The API of one function in `finished`: engine/src/conversion/parse/parse_foreign_mod.rs:135-146. -/
def finishedFn (ns : List String) (receivers : AMap Ident QName) (f : FuncToConvert) : NullApi :=
  .function ⟨⟨ns, f.ident⟩, f.originalName⟩ { f with selfTy := receivers.get? f.ident } ()

/-- `finished`: engine/src/conversion/parse/parse_foreign_mod.rs:133-148. -/
def ForeignState.finished (ns : List String) (s : ForeignState) (apis : ApiVec Unit Unit Unit) : ApiVec Unit Unit Unit :=
  (apis.append s.ignored).1.extend (s.funcs.map (finishedFn ns s.receivers))

/-! ## Items -/

/-- `api_name`: engine/src/conversion/parse/parse_bindgen.rs:43-47. -/
def apiNameOf (cb : Callbacks) (ns : List String) (id : Ident) : Option ApiName :=
  (cb.originalName ⟨ns, id⟩).map fun o => ⟨⟨ns, id⟩, o⟩

/-- `api_name_qualified`: engine/src/conversion/parse/parse_bindgen.rs:49-66. -/
def apiNameQualified (cb : Callbacks) (ns : List String) (id : Ident) : Option (Except ErrWithCtx ApiName) :=
  match validateIdentOkForCxx id with
  | .panic => none
  | .bad e => some (.error ⟨.invalidIdent e, some (.newForItem id)⟩)
  | .ok => (apiNameOf cb ns id).map .ok

/-- `spot_field`: engine/src/conversion/parse/parse_bindgen.rs:397-401. -/
def spotField (fields : List (Ident × Bool × Ty)) (id : Ident) : Bool := fields.any fun f => f.1 = id

/-- `check_for_fatal_attrs` (engine/src/conversion/mod.rs:281-301) while parsing: the error, if there is one. The outer
`none` is a panic. -/
def fatalAttrs (cb : Callbacks) (q : QName) : Option (Option ErrWithCtx) :=
  match cb.discardsOf q, cb.cppVisibilityOf q with
  | some d, some v =>
    some (match checkForFatalAttrs ⟨fun _ => d, fun _ => v⟩ q with
      | .error e => some e
      | .ok () => none)
  | _, _ => none

/-- The API of a struct, before blocked ones are dropped: engine/src/conversion/parse/parse_bindgen.rs:228-266. -/
def structApi (cfg : Config) (ns : List String) (id : Ident) (fields : List (Ident × Bool × Ty)) (generics : List Ident)
    (name : ApiName) (err : Option ErrWithCtx) : Option NullApi :=
  if (ns = [] ∧ cfg.isRustType id) ∨ isKnownType name.name then none
  else if spotField fields "_unused" ∨ (spotField fields "_address" ∧ err.isSome) then
    some (.forwardDeclaration name
      (if err = none ∧ cppNameIsNested name.effectiveCppName then
        some ⟨.forwardDeclaredNestedType, some (.newForItem id)⟩
      else err))
  else
    some (.struct name
      { fields := fields, generics := generics,
        hasRvalueReferenceFields := fields.any fun f => typeIsReference f.2.2 true } ())

/-- Unless it is blocked: engine/src/conversion/parse/parse_bindgen.rs:267-271, 279-281. -/
def unlessBlocked (cfg : Config) (a : NullApi) : List NullApi :=
  if cfg.isOnBlocklist a.name.toCppName then [] else [a]

/-- What becomes of one item in `parse_item`: APIs pushed at once, or an error. -/
abbrev ItemParsed := Except ErrWithCtx (List NullApi)

/-- `parse_item` for a struct: engine/src/conversion/parse/parse_bindgen.rs:217-273. -/
def parseStruct (cfg : Config) (cb : Callbacks) (ns : List String) (id : Ident) (fields : List (Ident × Bool × Ty))
    (generics : List Ident) : Option ItemParsed :=
  if (stripSuffix id "__bindgen_vtable").isSome then some (.ok [])
  else
    match apiNameQualified cb ns id with
    | none => none
    | some (.error e) => some (.error e)
    | some (.ok name) =>
      if isKnownSubstituteType name.name then some (.ok [])
      else
        (fatalAttrs cb name.name).map fun err =>
          match structApi cfg ns id fields generics name err with
          | none => .ok []
          | some a => .ok (unlessBlocked cfg a)

/-- `parse_item` for an enum: engine/src/conversion/parse/parse_bindgen.rs:274-283. -/
def parseEnum (cfg : Config) (cb : Callbacks) (ns : List String) (id : Ident) (item : String) : Option ItemParsed :=
  (apiNameQualified cb ns id).map fun r => match r with
    | .error e => .error e
    | .ok name => .ok (unlessBlocked cfg (.enum name item))

/-- The loop of `parse_item` for a `use` item: engine/src/conversion/parse/parse_bindgen.rs:303-354. `segs` are the
segments read so far. -/
def parseUse (cb : Callbacks) (ns : List String) (segs : List String) : BindgenUse → Option ItemParsed
  | .path id t => parseUse cb ns (segs ++ [id]) t
  | .name _ => some (.ok [])
  | .other => some (.ok [])
  | .rename old new =>
    if new = "bindgen_cchar16_t" then some (.ok [])
    else
      match segs with
      | "self" :: "super" :: rest =>
        match QName.ofTypePath (rest ++ [old]) with
        | none => none
        | some oldName =>
          if (⟨ns, new⟩ : QName) = oldName then
            some (.error ⟨.infinitelyRecursiveTypedef ⟨ns, new⟩, some (.newForItem new)⟩)
          else
            (apiNameOf cb ns new).map fun name =>
              .ok [.typedef name { isUse := true, ty := .path (rest ++ [old]) [] } (some oldName) ()]
      | _ => none

/-- `parse_item` for a constant: engine/src/conversion/parse/parse_bindgen.rs:355-373. -/
def parseConst (cb : Callbacks) (ns : List String) (id : Ident) (ty : Ty) (item : String) : Option ItemParsed :=
  match ty with
  | .path segs _ =>
    match segs.getLast? with
    | none => (apiNameOf cb ns id).map fun name => .ok [.const name item]
    | some last =>
      match validateIdentOkForCxx last with
      | .panic => none
      | .bad _ => some (.ok [])
      | .ok => (apiNameOf cb ns id).map fun name => .ok [.const name item]
  | _ => (apiNameOf cb ns id).map fun name => .ok [.const name item]

/-- `parse_item` for a type alias: engine/src/conversion/parse/parse_bindgen.rs:374-384. -/
def parseType (cb : Callbacks) (ns : List String) (id : Ident) (ty : Ty) (generics : List Ident) : Option ItemParsed :=
  (apiNameOf cb ns id).map fun name => .ok [.typedef name { ty := ty, generics := generics } none ()]

/-- The state while the items of a module are read: the APIs so far, what `ParseForeignMod` keeps, and the errors
(`more_apis`). -/
structure ModState where
  apis : ApiVec Unit Unit Unit
  foreign : ForeignState := {}
  more : ApiVec Unit Unit Unit := {}

/-- Taking in the result of `parse_item`, with `report_any_error`:
engine/src/conversion/parse/parse_bindgen.rs:199-201. -/
def ModState.take (ns : List String) (s : ModState) : ItemParsed → ModState
  | .ok l => { s with apis := s.apis.extend l }
  | .error e => { s with more := (reportAnyError (α := Unit) ns s.more (.error e)).1 }

/-- The end of `parse_mod_items`: engine/src/conversion/parse/parse_bindgen.rs:203-204. -/
def ModState.finish (ns : List String) (s : ModState) : ApiVec Unit Unit Unit :=
  s.foreign.finished ns (s.apis.append s.more).1

mutual
/-- `parse_item` (engine/src/conversion/parse/parse_bindgen.rs:207-387) within the loop of `parse_mod_items`. `none` is
a panic. -/
def parseBindgenItem (cfg : Config) (cb : Callbacks) (ns : List String) (s : ModState) : BindgenItem → Option ModState
  | .foreignMod items => (s.foreign.foreignMod cb ns items).map fun f => { s with foreign := f }
  | .struct id fields generics => (parseStruct cfg cb ns id fields generics).map (s.take ns)
  | .enum id item => (parseEnum cfg cb ns id item).map (s.take ns)
  | .impl ty items => (s.foreign.implItems ns ty items).map fun f => { s with foreign := f }
  | .mod id items =>
    (parseModItems cfg cb (ns ++ [id]) { apis := s.apis } items).map fun t =>
      { s with apis := t.finish (ns ++ [id]) }
  | .modDecl _ => some s
  | .use t => (parseUse cb ns [] t).map (s.take ns)
  | .const id ty item => (parseConst cb ns id ty item).map (s.take ns)
  | .type id ty generics => (parseType cb ns id ty generics).map (s.take ns)
  | .other => some (s.take ns (.error ⟨.other "UnexpectedItemInMod", none⟩))
/-- The loop of `parse_mod_items`: engine/src/conversion/parse/parse_bindgen.rs:192-202. -/
def parseModItems (cfg : Config) (cb : Callbacks) (ns : List String) (s : ModState) : List BindgenItem → Option ModState
  | [] => some s
  | i :: l =>
    match parseBindgenItem cfg cb ns s i with
    | none => none
    | some s => parseModItems cfg cb ns s l
end

/-- `find_items_in_root`: engine/src/conversion/parse/parse_bindgen.rs:175-188. The outer `none` is the failed
assertion. -/
def findItemsInRoot : List BindgenItem → Option (Option (List BindgenItem))
  | [] => some none
  | .mod id items :: _ => if id = "root" then some (some items) else none
  | .modDecl id :: l => if id = "root" then findItemsInRoot l else none
  | _ :: l => findItemsInRoot l

/-! ## The whole parser -/

/-- `ConvertError`: engine/src/conversion/convert_error.rs. -/
inductive ConvertErr where
  | noContent
  | cpp (e : Err)
  | rust (e : RustErr)
deriving DecidableEq, Repr

/-- The APIs of the functions in `extern_rust_funs`: engine/src/conversion/parse/parse_bindgen.rs:113-123. `sigOf` reads
the tokens of a signature. -/
def rustFunApis (sigOf : RustSig → RustFnSig) : List RustFun → Option (Except RustErr (List NullApi))
  | [] => some (.ok [])
  | f :: l =>
    match assembleExternFunDeps (sigOf f.sig) with
    | none => none
    | some (.error e) => some (.error e)
    | some (.ok deps) =>
      match rustFunApis sigOf l with
      | none => none
      | some (.error e) => some (.error e)
      | some (.ok r) => some (.ok (.rustFn (ApiName.ofQName ⟨[], f.sig.ident⟩) deps :: r))

/-- The API of a Rust type: engine/src/conversion/parse/parse_bindgen.rs:125-131. A `RustPath` is never empty. -/
def rustTypeApi (p : RustPath) : Option NullApi :=
  p.getLast?.map fun id => .rustType (ApiName.ofQName ⟨[], id⟩) (joinCC p)

/-- `add_apis_from_config` (engine/src/conversion/parse/parse_bindgen.rs:104-146), and before it `generate_utilities`
(engine/src/conversion/utilities.rs:21-30, called at 88-90): the APIs pushed, in their order. -/
def configApis (hash : Config → Nat) (sigOf : RustSig → RustFnSig) (cfg : Config) :
    Option (Except RustErr (List NullApi)) :=
  match rustFunApis sigOf cfg.externRustFuns with
  | none => none
  | some (.error e) => some (.error e)
  | some (.ok funs) =>
    ((cfg.rustTypes.foldl setInsert []).mapM rustTypeApi).map fun types =>
      .ok ((if cfg.excludeUtilities then [] else [.stringConstructor (ApiName.ofQName ⟨[], cfg.makestringName hash⟩)]) ++
        cfg.subclasses.map (fun sc => .subclass (subclassName sc.subclass) (QName.ofCppName sc.superclass)) ++
        funs ++ types ++
        cfg.concretes.map (fun e => .concreteType (ApiName.ofQName ⟨[], e.2⟩) none e.1))

/-- `confirm_all_generate_directives_obeyed`: engine/src/conversion/parse/parse_bindgen.rs:407-421. -/
def confirmDirectives (cfg : Config) (apis : ApiVec Unit Unit Unit) : Except Err Unit :=
  match cfg.mustGenerateList.find? fun d => d ∉ apis.apis.map fun a => a.name.toCppName with
  | some d => .error (.didNotGenerateAnything d)
  | none => .ok ()

/-- The replacements in `replace_extern_cpp_types`: engine/src/conversion/parse/parse_bindgen.rs:151-168. -/
def externReplacements (cfg : Config) : AMap QName NullApi :=
  cfg.externs.foldl (fun m e =>
    let q := QName.ofCppName e.1
    m.insert q (.externCppType (ApiName.ofQName q) (decide (q.toCppName ∈ cfg.podRequests)) e.2.isOpaque)) []

/-- `replace_extern_cpp_types`: engine/src/conversion/parse/parse_bindgen.rs:148-173. -/
def replaceExternCppTypes (cfg : Config) (apis : ApiVec Unit Unit Unit) : ApiVec Unit Unit Unit :=
  let r := externReplacements cfg
  (apis.retain fun a => (r.get? a.name).isNone).extend (r.map (·.2))

/-- `parse_items`: engine/src/conversion/parse/parse_bindgen.rs:82-100. `none` is a panic. -/
def parseBindgenItems (hash : Config → Nat) (sigOf : RustSig → RustFnSig) (cfg : Config) (cb : Callbacks)
    (items : List BindgenItem) : Option (Except ConvertErr (ApiVec Unit Unit Unit)) :=
  match findItemsInRoot items with
  | none => none
  | some items =>
    match configApis hash sigOf cfg with
    | none => none
    | some (.error e) => some (.error (.rust e))
    | some (.ok l) =>
      match parseModItems cfg cb [] { apis := ApiVec.extend {} l } (items.getD []) with
      | none => none
      | some s =>
        let apis := s.finish []
        match confirmDirectives cfg apis with
        | .error e => some (.error (.cpp e))
        | .ok () => some (.ok (replaceExternCppTypes cfg apis))

end Verif
