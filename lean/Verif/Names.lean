import Verif.KnownTypesLit

/-!
# Names in C++ and Rust notation

The rest of engine/src/types.rs, `SubclassName`, `CppEffectiveName` and `ErrorContext`.
-/

set_option autoImplicit false

namespace Verif

/-- `QualifiedName::to_cpp_name`: engine/src/types.rs:180-190. -/
def QName.toCppName (q : QName) : String :=
  match specialCppName q with
  | some n => n
  | none => joinCC q.segs

/-- `QualifiedName::to_type_path`: engine/src/types.rs:193-205, as the list of segments. -/
def QName.toTypePath (q : QName) : List String :=
  match considerSubstitution q with
  | some p => p
  | none => "output" :: q.segs

/-- The words which `syn::Ident`'s parser refuses (syn-2 `ident.rs`, `accept_as_ident`); used by
`validate_str_ok_for_rust`: engine/src/types.rs:276-281. -/
def rustReserved : List String :=
  ["_", "abstract", "as", "async", "await", "become", "box", "break", "const", "continue", "crate",
   "do", "dyn", "else", "enum", "extern", "false", "final", "fn", "for", "if", "impl", "in", "let",
   "loop", "macro", "match", "mod", "move", "mut", "override", "priv", "pub", "ref", "return",
   "Self", "self", "static", "struct", "super", "trait", "true", "try", "type", "typeof", "unsafe",
   "unsized", "use", "virtual", "where", "while", "yield"]

/-- Whether `Ident::new` accepts the text (engine/src/types.rs:21-23): otherwise it panics.
Simplification: every character outside ASCII counts as an identifier character (`Ident::new` uses
the Unicode XID tables). -/
def isIdentText (s : String) : Bool :=
  match s.toList with
  | [] => false
  | c :: r => (c.isAlpha || c = '_' || 128 ≤ c.toNat) &&
      r.all fun c => c.isAlphanum || c = '_' || 128 ≤ c.toNat

/-- Result of validating one identifier: accepted, rejected with an error, or panicking because the
text is no identifier at all. -/
inductive Checked where
  | ok
  | bad (e : InvalidIdentError)
  | panic
deriving DecidableEq, Repr

/-- `validate_str_ok_for_rust`: engine/src/types.rs:276-281. -/
def validateStrOkForRust (s : String) : Checked :=
  if !isIdentText s then .panic
  else if s ∈ rustReserved then .bad (.reservedName s)
  else .ok

/-- `validate_ident_ok_for_cxx`: engine/src/types.rs:256-270. -/
def validateIdentOkForCxx (s : String) : Checked :=
  match validateStrOkForRust s with
  | .ok =>
    if startsWith s "__BindgenBitfieldUnit" then .bad .bitfield
    else if startsWith s "__BindgenUnionField" then .bad .union
    else if containsStr s "__" && !startsWith s "__bindgen_marker" then .bad .tooManyUnderscores
    else if startsWith s "_bindgen_ty_" then .bad .bindgenTy
    else .ok
  | r => r

/-- Splits a list at the last occurrence of `p`, giving what is before and after it: how the greedy
`(.*)p` of engine/src/types.rs:286 matches. -/
def splitLast (p : List Char) : List Char → Option (List Char × List Char)
  | [] => if p.isEmpty then some ([], []) else none
  | c :: t =>
    match splitLast p t with
    | some (pre, post) => some (c :: pre, post)
    | none => if p.isPrefixOf (c :: t) then some ([], (c :: t).drop p.length) else none

/-- The characters of the suffix autocxx appends to function names
(engine/src/parse_callbacks.rs:287). -/
def bindgenSuffix : String := "_bindgen_original"

/-- `strip_bindgen_original_suffix`: engine/src/types.rs:285-297. The regular expression
`(.*)_bindgen_original(\d*)` is unanchored on the right, so any text after the digits is dropped.
Simplification: `\d` is restricted to ASCII digits. -/
def stripBindgenSuffix (s : String) : String :=
  match splitLast bindgenSuffix.toList s.toList with
  | some (pre, post) => String.ofList (pre ++ post.takeWhile Char.isDigit)
  | none => s

/-- `AutocxxParseCallbacks::generated_name_override`: engine/src/parse_callbacks.rs:275-290. -/
def generatedNameOverride (isFunction : Bool) (n : String) : Option String :=
  if isFunction then some (n ++ bindgenSuffix) else none

/-- `CppOriginalName::is_nested` / `CppEffectiveName::is_nested`:
engine/src/parse_callbacks.rs:40-42, engine/src/conversion/mod.rs:275-277. -/
def cppNameIsNested (s : String) : Bool := containsStr s "::"

/-- `ApiName::cpp_name` (effective C++ name): engine/src/conversion/api.rs:251-253 and
engine/src/conversion/mod.rs:235-243. -/
def ApiName.effectiveCppName (n : ApiName) : String := n.cppName.getD n.name.name

/-- `ApiName::qualified_cpp_name`: engine/src/conversion/api.rs:255-265. -/
def ApiName.qualifiedCppName (n : ApiName) : String := joinCC (n.name.ns ++ [n.effectiveCppName])

/-! ## `SubclassName`: engine/src/conversion/api.rs:287-341. A `SubclassName` is an `ApiName`; the
functions below take it. -/

/-- `SubclassName::new`: engine/src/conversion/api.rs:290-292. -/
def subclassName (id : Ident) : ApiName := ⟨⟨[], id⟩, none⟩

/-- `SubclassName::holder`: engine/src/conversion/api.rs:300-302. -/
def ApiName.holder (n : ApiName) : Ident := n.name.name ++ "Holder"

/-- `SubclassName::cpp`: engine/src/conversion/api.rs:304-307. -/
def ApiName.cppPeer (n : ApiName) : QName := ⟨n.name.ns, n.name.name ++ "Cpp"⟩

/-- `SubclassName::cpp_remove_ownership`: engine/src/conversion/api.rs:308-310. -/
def ApiName.cppRemoveOwnership (n : ApiName) : Ident := n.name.name ++ "Cpp_remove_ownership"

/-- `SubclassName::remove_ownership`: engine/src/conversion/api.rs:311-313. -/
def ApiName.removeOwnership (n : ApiName) : Ident := n.name.name ++ "_remove_ownership"

/-- `SubclassName::from_holder_name`: engine/src/conversion/api.rs:293-295. `none` is the panic of
`unwrap` when the suffix is missing. -/
def subclassFromHolder (id : Ident) : Option ApiName := (stripSuffix id "Holder").map subclassName

/-- `SubclassName::get_trait_api_name`: engine/src/conversion/api.rs:317-326. -/
def traitApiName (sup : QName) (method : String) : QName :=
  ⟨sup.ns, sup.name ++ "_" ++ method ++ "_trait_item"⟩

/-- `SubclassName::get_super_fn_name`: engine/src/conversion/api.rs:328-331. -/
def superFnName (ns : List String) (id : String) : QName := ⟨ns, id ++ "_super"⟩

/-- `SubclassName::get_methods_trait_name`: engine/src/conversion/api.rs:332-334. -/
def methodsTraitName (sup : QName) : QName := ⟨sup.ns, sup.name ++ "_" ++ "methods"⟩

/-- `SubclassName::get_supers_trait_name`: engine/src/conversion/api.rs:335-337. -/
def supersTraitName (sup : QName) : QName := ⟨sup.ns, sup.name ++ "_" ++ "supers"⟩

/-! ## `ErrorContext`: engine/src/conversion/convert_error.rs:219-260. -/

/-- `ErrorContext::sanitize_error_ident`: engine/src/conversion/convert_error.rs:253-260. -/
def sanitizeErrorIdent (id : Ident) : Option Ident :=
  if conflictsWithBuiltInType ⟨[], id⟩ then some (id ++ "_autocxx_error") else none

/-- `ErrorContext::new_for_item`: engine/src/conversion/convert_error.rs:220-228. -/
def ErrorContext.newForItem (id : Ident) : ErrorContext :=
  match sanitizeErrorIdent id with
  | none => .item id
  | some s => .sanitizedItem s

/-- `ErrorContext::new_for_method`: engine/src/conversion/convert_error.rs:230-249. -/
def ErrorContext.newForMethod (selfTy method : Ident) : ErrorContext :=
  match sanitizeErrorIdent selfTy with
  | none => .method selfTy ((sanitizeErrorIdent method).getD method)
  | some _ => .sanitizedItem (selfTy ++ "_" ++ method)

end Verif
