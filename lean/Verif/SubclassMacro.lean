import Verif.Discover
import Verif.ConfigParse

/-!
# The attributes of Rust items

Model of `macro/src/lib.rs`: what `#[subclass]` makes of a struct, and which items `#[extern_rust_type]` and
`#[extern_rust_function]` may be put on.

Left out: `include_cpp_impl`, which is the parser of directives (ConfigParse) followed by an `include!` of the generated file, and
`cpp_semantics`, which always aborts. Spans are not modelled.
-/

set_option autoImplicit false

namespace Verif

/-- `syn::Visibility`. -/
inductive RustVis where
  | pub
  | restricted
  | inherited
deriving DecidableEq, Repr

/-- The type of a field: one which the user wrote, or
`autocxx::subclass::CppSubclassCppPeerHolder<peer>`. -/
inductive MacroFieldTy where
  | user (t : SynType)
  | peerHolder (peer : List Ident)

/-- `syn::Field` with a name. -/
structure MacroField where
  vis : RustVis
  name : Ident
  ty : MacroFieldTy

/-- `syn::Fields`. -/
inductive MacroFields where
  | named (l : List MacroField)
  | unnamed (l : List SynType)
  | unit

/-- `syn::ItemStruct`. -/
structure MacroStruct where
  attrs : List Attr
  vis : RustVis
  ident : Ident
  generics : List Ident
  fields : MacroFields

/-- `syn::Item`, as far as the attributes look. -/
inductive MacroItem where
  | struct (s : MacroStruct)
  | enum
  | fn
  | other

/-- What the attributes may complain of. -/
inductive MacroErr where
  | notStruct
  | notPublic
  | tupleStruct
  | badAttributes
  | expectedNoAttributes
  | notStructOrEnum
  | notFunction
deriving DecidableEq, Repr

/-- What `#[subclass]` gives: macro/src/lib.rs:67-80. -/
structure SubclassExpansion where
  /-- the struct -/
  item : MacroStruct
  /-- the `X` in `impl CppSubclass<X> for …`, and in what its functions give -/
  peer : List Ident
  /-- what `CppSubclass` is implemented for -/
  target : Ident
  /-- the field which `peer_holder_mut` and `peer_holder` give -/
  getMut : Ident
  get : Ident
  /-- the `X` and `Y` in `impl CppSubclassSelfOwned<X> for Y {}` -/
  selfOwned : Option (List Ident × Ident)

/-- The path of the peer: macro/src/lib.rs:40-43,62,70. -/
def peerPath (id : Ident) : List Ident := ["ffi", id ++ "Cpp"]

/-- The new field: macro/src/lib.rs:41-45. -/
def peerField (id : Ident) : MacroField := ⟨.inherited, "cpp_peer", .peerHolder (peerPath id)⟩

/-- The fields with the new one: macro/src/lib.rs:46-57. -/
def addPeerField (id : Ident) : MacroFields → Except MacroErr MacroFields
  | .named l => .ok (.named (l ++ [peerField id]))
  | .unit => .ok (.named [peerField id])
  | .unnamed _ => .error .tupleStruct

/-- `subclass`: macro/src/lib.rs:32-82. -/
def expandSubclass (attr : List Tok) : MacroItem → Except MacroErr SubclassExpansion
  | .struct s =>
    if s.vis ≠ .pub then .error .notPublic
    else
      (addPeerField s.ident s.fields).bind fun fields =>
        match parseSubclassAttrs attr with
        | .error _ => .error .badAttributes
        | .ok attrs =>
          .ok { item := { s with fields := fields }
                peer := peerPath s.ident
                target := s.ident
                getMut := "cpp_peer"
                get := "cpp_peer"
                selfOwned := if attrs.selfOwned then some (peerPath s.ident, s.ident) else none }
  | _ => .error .notStruct

/-- `extern_rust_type`, which gives the item as it is: macro/src/lib.rs:88-99. -/
def expandExternRustType (attr : List Tok) (i : MacroItem) : Except MacroErr MacroItem :=
  if attr ≠ [] then .error .expectedNoAttributes
  else
    match i with
    | .struct _ | .enum | .fn => .ok i
    | .other => .error .notStructOrEnum

/-- `extern_rust_function`: macro/src/lib.rs:105-116. -/
def expandExternRustFunction (attr : List Tok) (i : MacroItem) : Except MacroErr MacroItem :=
  if attr ≠ [] then .error .expectedNoAttributes
  else
    match i with
    | .fn => .ok i
    | _ => .error .notFunction

end Verif
