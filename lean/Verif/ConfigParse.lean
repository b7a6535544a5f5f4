import Verif.Config
import Verif.Names

/-!
# Parsing and printing `include_cpp!` configurations

parser/src/config.rs, parser/src/directives.rs, parser/src/path.rs and parser/src/subclass_attrs.rs,
over a small model of Rust token trees.
-/

set_option autoImplicit false

namespace Verif

/-- A Rust token tree, as far as the configuration parser distinguishes them. Simplification: all the
tokens of one `syn::Signature` are one token `sig`, so that parsing and printing a signature are trusted
to be inverse; a keyword is an `ident` with that text. -/
inductive Tok where
  | ident (s : String)
  | lit (s : String)
  | pound | bang | comma | pathSep
  | sig (s : RustSig)
  | paren (l : List Tok)
  | other
deriving Repr, Inhabited

/-- The ways in which parsing a configuration can fail. -/
inductive PErr where
  /-- a token other than the expected one -/
  | syntax
  /-- no directive has this name: parser/src/config.rs:251-256 -/
  | unknownDirective (s : String)
  /-- tokens are left within a directive: parser/src/config.rs:259-264 and 65-70 -/
  | leftover
  /-- `ConflictingGenerateAndGenerateAll`: parser/src/config.rs:120-121 -/
  | conflict
  /-- neither `unsafe_ffi` nor `unsafe_references_wrapped`: parser/src/config.rs:57-60 -/
  | badPolicy
  /-- parser/src/subclass_attrs.rs:34-38 -/
  | twoSuperclasses
  /-- parser/src/subclass_attrs.rs:41-46 -/
  | badAttribute
deriving DecidableEq, Repr, Inhabited

/-- A parser of the front of a token stream. -/
abbrev TParser (α : Type) := List Tok → Except PErr (α × List Tok)

/-- `input.parse::<syn::Ident>()`: keywords are refused. -/
def pIdent : TParser Ident
  | .ident s :: ts => if s ∈ rustReserved then .error .syntax else .ok (s, ts)
  | _ => .error .syntax

/-- `input.parse::<syn::LitStr>()` and `value()`. -/
def pLit : TParser String
  | .lit s :: ts => .ok (s, ts)
  | _ => .error .syntax

/-- `input.parse::<syn::token::Comma>()`. -/
def pComma : TParser Unit
  | .comma :: ts => .ok ((), ts)
  | _ => .error .syntax

/-- `input.parse::<syn::Signature>()`. -/
def pSig : TParser RustSig
  | .sig s :: ts => .ok (s, ts)
  | _ => .error .syntax

/-- The `while` loop of parser/src/path.rs:61-64 over `:: Ident`; `acc` is the path so far. -/
def pPathRest (acc : RustPath) : TParser RustPath
  | .pathSep :: ts =>
    match ts with
    | .ident s :: ts => if s ∈ rustReserved then .error .syntax else pPathRest (acc ++ [s]) ts
    | _ => .error .syntax
  | ts => .ok (acc, ts)

/-- `RustPath::parse`: parser/src/path.rs:58-66. -/
def pPath : TParser RustPath := fun ts => do
  let (id, ts) ← pIdent ts
  pPathRest [id] ts

/-- `RustPath::to_tokens`: parser/src/path.rs:43-54. -/
def pathToks : RustPath → List Tok
  | [] => []
  | [id] => [.ident id]
  | id :: r => .ident id :: .pathSep :: pathToks r

/-- The words which may be a path segment although they are no identifiers (syn-2
`PathSegment::parse_helper`). -/
def pathKeywords : List String := ["super", "self", "crate", "Self"]

/-- Whether `s` may be a segment of a `syn::TypePath`. -/
def isTypeSeg (s : String) : Bool := s ∈ pathKeywords || s ∉ rustReserved

/-- `input.parse::<syn::TypePath>()`, the loop over `:: segment`. -/
def pTypePathRest (acc : RustPath) : TParser RustPath
  | .pathSep :: ts =>
    match ts with
    | .ident s :: ts => if isTypeSeg s then pTypePathRest (acc ++ [s]) ts else .error .syntax
    | _ => .error .syntax
  | ts => .ok (acc, ts)

/-- `input.parse::<syn::TypePath>()`. Simplification: no generic arguments, no leading `::`, no
`<T as Trait>`. -/
def pTypePath : TParser RustPath
  | .ident s :: ts => if isTypeSeg s then pTypePathRest [s] ts else .error .syntax
  | _ => .error .syntax

/-- `UnsafePolicy::parse`: parser/src/config.rs:44-73. Everything within the directive is parsed, except
after `unsafe`. -/
def pPolicy : TParser UnsafePolicy
  | .ident s :: ts =>
    if s = "unsafe" then .ok (.allFunctionsSafe, ts)
    else if s ∈ rustReserved then .error .leftover
    else
      if ts.isEmpty then
        if s = "unsafe_ffi" then .ok (.allFunctionsSafe, [])
        else if s = "unsafe_references_wrapped" then .ok (.referencesWrappedAllFunctionsSafe, [])
        else .error .badPolicy
      else .error .leftover
  | [] => .ok (.allFunctionsUnsafe, [])
  | _ => .error .leftover

/-- `UnsafePolicy::to_tokens`: parser/src/config.rs:75-83. -/
def UnsafePolicy.toks : UnsafePolicy → List Tok
  | .allFunctionsSafe => [.ident "unsafe"]
  | .referencesWrappedAllFunctionsSafe => [.ident "unsafe_references_wrapped"]
  | .allFunctionsUnsafe => []

/-- `Generate::parse` and `GenerateNs::parse`, the effect on the configuration:
parser/src/directives.rs:168-183, 209-221. -/
def pushAllow (e : AllowlistEntry) (c : Config) : Except PErr Config :=
  match c.allowlist.push e with
  | some a => .ok { c with allowlist := a }
  | none => .error .conflict

/-- `GenerateAll::parse`: parser/src/directives.rs:247-258. -/
def setAllowAll (c : Config) : Except PErr Config :=
  match c.allowlist.setAll with
  | some a => .ok { c with allowlist := a }
  | none => .error .conflict

/-- `Inclusion::parse`: parser/src/directives.rs:144-153. -/
def dInclude (c : Config) : TParser Config := fun ts => do
  let (h, ts) ← pLit ts
  .ok ({ c with inclusions := c.inclusions ++ [h] }, ts)

/-- `Generate::parse`: parser/src/directives.rs:168-183. -/
def dGenerate (pod : Bool) (c : Config) : TParser Config := fun ts => do
  let (g, ts) ← pLit ts
  let c ← pushAllow (.item g) c
  .ok (if pod then { c with podRequests := c.podRequests ++ [g] } else c, ts)

/-- `GenerateNs::parse`: parser/src/directives.rs:209-221. -/
def dGenerateNs (c : Config) : TParser Config := fun ts => do
  let (g, ts) ← pLit ts
  let c ← pushAllow (.nspace g) c
  .ok (c, ts)

/-- `Safety::parse`: parser/src/directives.rs:276-284. -/
def dSafety (c : Config) : TParser Config := fun ts => do
  let (p, ts) ← pPolicy ts
  .ok ({ c with unsafePolicy := p }, ts)

/-- `StringList::parse`: parser/src/directives.rs:313-322, with the field's setter. -/
def dString (set : Config → String → Config) (c : Config) : TParser Config := fun ts => do
  let (s, ts) ← pLit ts
  .ok (set c s, ts)

/-- `ModName::parse`: parser/src/directives.rs:373-382. -/
def dName (c : Config) : TParser Config := fun ts => do
  let (id, ts) ← pIdent ts
  .ok ({ c with modName := some id }, ts)

/-- `Concrete::parse`: parser/src/directives.rs:399-410. -/
def dConcrete (c : Config) : TParser Config := fun ts => do
  let (d, ts) ← pLit ts
  let (_, ts) ← pComma ts
  let (id, ts) ← pIdent ts
  .ok ({ c with concretes := c.concretes.insert d id }, ts)

/-- `RustType::parse`: parser/src/directives.rs:431-440. -/
def dRustType (c : Config) : TParser Config := fun ts => do
  let (id, ts) ← pIdent ts
  .ok ({ c with rustTypes := c.rustTypes ++ [[id]] }, ts)

/-- `Subclass::parse`: parser/src/directives.rs:458-472. -/
def dSubclass (c : Config) : TParser Config := fun ts => do
  let (s, ts) ← pLit ts
  let (_, ts) ← pComma ts
  let (id, ts) ← pIdent ts
  .ok ({ c with subclasses := c.subclasses ++ [⟨s, id⟩] }, ts)

/-- `ExternRustFun::parse`: parser/src/directives.rs:492-507. -/
def dExternRustFun (c : Config) : TParser Config := fun ts => do
  let (p, ts) ← pPath ts
  let (_, ts) ← pComma ts
  let (s, ts) ← pSig ts
  .ok ({ c with externRustFuns := c.externRustFuns ++ [⟨p, s, false⟩] }, ts)

/-- `ExternCppType::parse`: parser/src/directives.rs:527-544. -/
def dExternCppType (isOpaque : Bool) (c : Config) : TParser Config := fun ts => do
  let (d, ts) ← pLit ts
  let (_, ts) ← pComma ts
  let (p, ts) ← pTypePath ts
  .ok ({ c with externs := c.externs.insert d ⟨p, isOpaque⟩ }, ts)

/-- The table of directives which need an exclamation mark, and what each does with its arguments:
parser/src/directives.rs:37-121; the flags are `BoolFlag::parse` (347-355). `none`: there is no directive of that name. -/
def directive (name : String) : Option (Config → TParser Config) :=
  if name = "generate" then some (dGenerate false)
  else if name = "generate_pod" then some (dGenerate true)
  else if name = "generate_ns" then some dGenerateNs
  else if name = "generate_all" then some fun c ts => (setAllowAll c).map (·, ts)
  else if name = "safety" then some dSafety
  else if name = "pod" then
    some (dString fun c s => { c with podRequests := c.podRequests ++ [s] })
  else if name = "block" then
    some (dString fun c s => { c with blocklist := c.blocklist ++ [s] })
  else if name = "opaque" then
    some (dString fun c s => { c with opaquelist := c.opaquelist ++ [s] })
  else if name = "block_constructors" then
    some (dString fun c s => { c with constructorBlocklist := c.constructorBlocklist ++ [s] })
  else if name = "instantiable" then
    some (dString fun c s => { c with instantiable := c.instantiable ++ [s] })
  else if name = "parse_only" then some fun c ts => .ok ({ c with parseOnly := true }, ts)
  else if name = "exclude_impls" then some fun c ts => .ok ({ c with excludeImpls := true }, ts)
  else if name = "exclude_utilities" then
    some fun c ts => .ok ({ c with excludeUtilities := true }, ts)
  else if name = "name" then some dName
  else if name = "concrete" then some dConcrete
  else if name = "rust_type" then some dRustType
  else if name = "extern_rust_type" then some dRustType
  else if name = "subclass" then some dSubclass
  else if name = "extern_rust_function" then some dExternRustFun
  else if name = "extern_cpp_type" then some (dExternCppType false)
  else if name = "extern_cpp_opaque_type" then some (dExternCppType true)
  else none

/-- One directive with an exclamation mark, given its arguments: parser/src/config.rs:249-264. -/
def runDirective (name : String) (args : List Tok) (c : Config) : Except PErr Config :=
  match directive name with
  | none => .error (.unknownDirective name)
  | some d =>
    match d c args with
    | .error e => .error e
    | .ok (c, []) => .ok c
    | .ok (_, _ :: _) => .error .leftover

/-- The loop of `IncludeCppConfig::parse`: parser/src/config.rs:237-269. -/
def parseLoop : List Tok → Config → Except PErr Config
  | [], c => .ok c
  | .pound :: ts, c =>
    match ts with
    | .ident id :: ts =>
      if id ∈ rustReserved then .error .syntax
      else if id ≠ "include" then .error (.unknownDirective id)
      else
        match ts with
        | .lit h :: ts => parseLoop ts { c with inclusions := c.inclusions ++ [h] }
        | _ => .error .syntax
    | _ => .error .syntax
  | .ident id :: ts, c =>
    if id ∈ rustReserved then .error .syntax
    else
      match ts with
      | .bang :: .paren args :: ts | .paren args :: ts =>
        match runDirective id args c with
        | .ok c => parseLoop ts c
        | .error e => .error e
      | _ => .error .syntax
  | _ :: _, _ => .error .syntax

/-- `IncludeCppConfig::parse`: parser/src/config.rs:233-271. -/
def parseConfig (ts : List Tok) : Except PErr Config := parseLoop ts {}

/-- The items of a specific allowlist: parser/src/directives.rs:190-199. -/
def Allowlist.items : Allowlist → List String
  | .specific l => l.filterMap fun
      | .item s => some s
      | .nspace _ => none
  | _ => []

/-- The namespaces of a specific allowlist: parser/src/directives.rs:228-237. -/
def Allowlist.nspaces : Allowlist → List String
  | .specific l => l.filterMap fun
      | .item _ => none
      | .nspace s => some s
  | _ => []

/-- What each directive prints between its parentheses, in the order of the table:
the `output` functions of parser/src/directives.rs:156-573. -/
def Config.outputs (c : Config) : List (String × List (List Tok)) :=
  [("generate", c.allowlist.items.map fun s => [.lit s]),
   ("generate_pod", []),
   ("generate_ns", c.allowlist.nspaces.map fun s => [.lit s]),
   ("generate_all", if c.allowlist = .all then [[]] else []),
   ("safety", if c.unsafePolicy = .allFunctionsUnsafe then [] else [c.unsafePolicy.toks]),
   ("pod", c.podRequests.map fun s => [.lit s]),
   ("block", c.blocklist.map fun s => [.lit s]),
   ("opaque", c.opaquelist.map fun s => [.lit s]),
   ("block_constructors", c.constructorBlocklist.map fun s => [.lit s]),
   ("instantiable", c.instantiable.map fun s => [.lit s]),
   ("parse_only", if c.parseOnly then [[]] else []),
   ("exclude_impls", if c.excludeImpls then [[]] else []),
   ("exclude_utilities", if c.excludeUtilities then [[]] else []),
   ("name", c.modName.toList.map fun id => [.ident id]),
   ("concrete", c.concretes.map fun e => [.lit e.1, .comma, .ident e.2]),
   ("rust_type", []),
   ("extern_rust_type", c.rustTypes.map pathToks),
   ("subclass", c.subclasses.map fun s => [.lit s.superclass, .comma, .ident s.subclass]),
   ("extern_rust_function", c.externRustFuns.map fun f => pathToks f.path ++ [.comma, .sig f.sig]),
   ("extern_cpp_type", (c.externs.filter fun e => !e.2.isOpaque).map fun e =>
      [.lit e.1, .comma] ++ pathToks e.2.rustPath),
   ("extern_cpp_opaque_type", (c.externs.filter fun e => e.2.isOpaque).map fun e =>
      [.lit e.1, .comma] ++ pathToks e.2.rustPath)]

/-- `IncludeCppConfig::to_tokens`: parser/src/config.rs:478-500. `none` is the panic "Allowlist mode not
yet determined" (parser/src/directives.rs:200, 238, 267). -/
def Config.print (c : Config) : Option (List Tok) :=
  match c.allowlist with
  | .unspecified _ => none
  | _ => some ((c.inclusions.flatMap fun h => [.pound, .ident "include", .lit h]) ++
      c.outputs.flatMap fun e => e.2.flatMap fun args => [.ident e.1, .bang, .paren args])

/-- `SubclassAttrs`: parser/src/subclass_attrs.rs:17-20. -/
structure SubclassAttrs where
  selfOwned : Bool := false
  superclass : Option String := none
deriving DecidableEq, Repr, Inhabited

/-- `SubclassAttrs::parse`: parser/src/subclass_attrs.rs:23-57. Gives the attributes and the tokens left
over. Simplification: tokens after the literal in `superclass("…" …)`, which syn reports at the end of
the parse, are reported at once. -/
def pSubclassAttrs (me : SubclassAttrs) : TParser SubclassAttrs
  | .ident id :: ts =>
    if id ∈ rustReserved then .ok (me, .ident id :: ts)
    else if id = "self_owned" then
      match ts with
      | .comma :: ts => pSubclassAttrs { me with selfOwned := true } ts
      | ts => .ok ({ me with selfOwned := true }, ts)
    else if id = "superclass" then
      match ts with
      | .paren [.lit s] :: ts =>
        if me.superclass.isSome then .error .twoSuperclasses
        else
          match ts with
          | .comma :: ts => pSubclassAttrs { me with superclass := some s } ts
          | ts => .ok ({ me with superclass := some s }, ts)
      | .paren (.lit _ :: _ :: _) :: _ =>
        -- the second superclass is noticed before the leftover tokens
        if me.superclass.isSome then .error .twoSuperclasses else .error .leftover
      | _ => .error .syntax
    else .error .badAttribute
  | ts => .ok (me, ts)

/-- `syn::parse::<SubclassAttrs>` of the attribute's arguments: macro/src/lib.rs:58-59; tokens left
over are an error. -/
def parseSubclassAttrs (ts : List Tok) : Except PErr SubclassAttrs :=
  match pSubclassAttrs {} ts with
  | .error e => .error e
  | .ok (a, []) => .ok a
  | .ok (_, _ :: _) => .error .leftover

end Verif
