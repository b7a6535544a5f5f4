import Verif.Str
import Verif.AMap
import Verif.Core

/-!
# The `include_cpp!` configuration

parser/src/config.rs: the data structure and the questions asked of it. Printing and parsing are in
`Verif.ConfigParse`.
-/

set_option autoImplicit false

namespace Verif

/-- `UnsafePolicy`: parser/src/config.rs:32-36. -/
inductive UnsafePolicy where
  | allFunctionsSafe | allFunctionsUnsafe | referencesWrappedAllFunctionsSafe
deriving DecidableEq, Repr, Inhabited

/-- `UnsafePolicy::requires_cpprefs`: parser/src/config.rs:88-90. -/
def UnsafePolicy.requiresCpprefs : UnsafePolicy → Bool
  | .referencesWrappedAllFunctionsSafe => true
  | _ => false

/-- `AllowlistEntry`: parser/src/config.rs:95-98. -/
inductive AllowlistEntry where
  | item (s : String)
  | nspace (s : String)
deriving DecidableEq, Repr, Inhabited

/-- `AllowlistEntry::to_bindgen_item`: parser/src/config.rs:101-106. -/
def AllowlistEntry.toBindgenItem : AllowlistEntry → String
  | .item i => i
  | .nspace ns => ns ++ "::.*"

/-- `Allowlist`: parser/src/config.rs:111-115. -/
inductive Allowlist where
  | unspecified (l : List AllowlistEntry)
  | all
  | specific (l : List AllowlistEntry)
deriving DecidableEq, Repr, Inhabited

/-- `Allowlist::push`: parser/src/config.rs:125-140. `none` is
`ConflictingGenerateAndGenerateAll`. -/
def Allowlist.push : Allowlist → AllowlistEntry → Option Allowlist
  | .unspecified l, e => some (.specific (l ++ [e]))
  | .all, _ => none
  | .specific l, e => some (.specific (l ++ [e]))

/-- `Allowlist::set_all`: parser/src/config.rs:142-148. -/
def Allowlist.setAll : Allowlist → Option Allowlist
  | .specific _ => none
  | _ => some .all

/-- `Subclass`: parser/src/config.rs:158-162. -/
structure SubclassReq where
  superclass : String
  subclass : Ident
deriving DecidableEq, Repr, Inhabited

/-- `RustPath`: parser/src/path.rs:17. The Rust type promises a non-empty list (`RustPath` can only be
made from one identifier or by appending). -/
abbrev RustPath := List Ident

/-- A Rust `Signature`, kept as the name, the tokens of the parameter list and the return type, each an
opaque string. -/
structure RustSig where
  ident : Ident
  inputs : String
  output : Option String
deriving DecidableEq, Repr, Inhabited

/-- `RustFun`: parser/src/config.rs:164-169. -/
structure RustFun where
  path : RustPath
  sig : RustSig
  hasReceiver : Bool
deriving DecidableEq, Repr, Inhabited

/-- `ExternCppType`: parser/src/config.rs:180-184. -/
structure ExternCppTypeReq where
  rustPath : RustPath
  isOpaque : Bool
deriving DecidableEq, Repr, Inhabited

/-- `IncludeCppConfig`: parser/src/config.rs:212-231. -/
structure Config where
  inclusions : List String := []
  unsafePolicy : UnsafePolicy := .allFunctionsUnsafe
  parseOnly : Bool := false
  excludeImpls : Bool := false
  podRequests : List String := []
  allowlist : Allowlist := .unspecified []
  blocklist : List String := []
  constructorBlocklist : List String := []
  instantiable : List String := []
  excludeUtilities : Bool := false
  modName : Option Ident := none
  rustTypes : List RustPath := []
  subclasses : List SubclassReq := []
  externRustFuns : List RustFun := []
  concretes : AMap String Ident := []
  externs : AMap String ExternCppTypeReq := []
  opaquelist : List String := []
deriving DecidableEq, Repr, Inhabited

namespace Config

/-- `get_mod_name`: parser/src/config.rs:278-283. -/
def getModName (c : Config) : Ident := c.modName.getD "ffi"

/-- `must_generate_list`: parser/src/config.rs:293-308. -/
def mustGenerateList (c : Config) : List String :=
  match c.allowlist with
  | .specific items => items.filterMap (fun
      | .item i => some i
      | .nspace _ => none) ++ c.podRequests
  | _ => c.podRequests

/-- `get_makestring_name` (parser/src/config.rs:409-415): `{name}_{hash:#x}`. The hash of the
configuration (`get_hash`, 400-404) is the parameter `hash`: `DefaultHasher` is not modelled. -/
def makestringName (hash : Config → Nat) (c : Config) : String :=
  "autocxx_make_string" ++ "_" ++ "0x" ++ String.ofList (Nat.toDigits 16 (hash c))

/-- `active_utilities`: parser/src/config.rs:332-338. -/
def activeUtilities (hash : Config → Nat) (c : Config) : List String :=
  if c.excludeUtilities then [] else [c.makestringName hash]

/-- `bindgen_allowlist`: parser/src/config.rs:311-330. The outer `Option` is the panic of
`unreachable!()`; the inner one is the function's own result. -/
def bindgenAllowlist (hash : Config → Nat) (c : Config) : Option (Option (List String)) :=
  match c.allowlist with
  | .all => some none
  | .specific items => some (some (items.map AllowlistEntry.toBindgenItem ++ c.podRequests ++
      c.activeUtilities hash ++
      c.subclasses.flatMap fun sc => [sc.subclass ++ "Cpp", sc.subclass, sc.superclass]))
  | .unspecified _ => none

/-- `is_subclass_or_superclass`: parser/src/config.rs:340-350. -/
def isSubclassOrSuperclass (c : Config) (n : String) : Bool :=
  (c.subclasses.flatMap fun sc => [sc.subclass, sc.superclass]).any (n = ·)

/-- `is_subclass_holder`: parser/src/config.rs:441-445. -/
def isSubclassHolder (c : Config) (n : String) : Bool :=
  c.subclasses.any fun sc => sc.subclass ++ "Holder" = n

/-- `is_subclass_cpp`: parser/src/config.rs:447-451. -/
def isSubclassCpp (c : Config) (n : String) : Bool :=
  c.subclasses.any fun sc => sc.subclass ++ "Cpp" = n

/-- `is_rust_fun`: parser/src/config.rs:428-433. -/
def isRustFun (c : Config) (n : String) : Bool := c.externRustFuns.any fun f => f.sig.ident = n

/-- `is_rust_type_name`: parser/src/config.rs:422-426. A `RustPath` is never empty, so the `unwrap` of
`get_final_ident` (parser/src/path.rs:29-31) cannot fail. -/
def isRustTypeName (c : Config) (n : String) : Bool := c.rustTypes.any fun p => p.getLast? = some n

/-- `is_rust_type`: parser/src/config.rs:417-420. -/
def isRustType (c : Config) (n : String) : Bool := c.isRustTypeName n || c.isSubclassHolder n

/-- `is_concrete_type`: parser/src/config.rs:395-397. -/
def isConcreteType (c : Config) (n : String) : Bool := c.concretes.any fun e => e.2 = n

/-- `is_on_allowlist`: parser/src/config.rs:361-377. `none` is the panic "Eek no allowlist yet". -/
def isOnAllowlist (hash : Config → Nat) (c : Config) (n : String) : Option Bool :=
  if (c.activeUtilities hash).any (· = n) || c.isSubclassOrSuperclass n || c.isSubclassHolder n ||
      c.isSubclassCpp n || c.isRustFun n || c.isRustTypeName n || c.isConcreteType n then some true
  else match c.allowlist with
    | .unspecified _ => none
    | .all => some true
    | .specific items => some (items.any fun
      | .item i => i = n
      | .nspace ns => startsWith n ns)

/-- `is_on_blocklist`: parser/src/config.rs:379-381. -/
def isOnBlocklist (c : Config) (n : String) : Bool := n ∈ c.blocklist

/-- `is_on_constructor_blocklist`: parser/src/config.rs:383-385. -/
def isOnConstructorBlocklist (c : Config) (n : String) : Bool := n ∈ c.constructorBlocklist

/-- `get_rs_filename`: parser/src/config.rs:454-462. -/
def rsFilename (c : Config) : String := "autocxx-" ++ c.modName.getD "ffi-default" ++ "-gen.rs"

/-- `confirm_complete`: parser/src/config.rs:464-468. -/
def confirmComplete (c : Config) : Config :=
  match c.allowlist with
  | .unspecified _ => { c with allowlist := .specific [] }
  | _ => c

end Config
end Verif
