import Verif.ConfigParse

/-!
# Engines and source files

The state machine of one `include_cpp!` block (engine/src/lib.rs, `IncludeCppEngine`) and the search
of a Rust source file for blocks (engine/src/parse_file.rs).

What happens within a generation (bindgen and the conversion) is a parameter, and so is the search
of items for things to discover (engine/src/ast_discoverer.rs).
-/

set_option autoImplicit false

namespace Verif

/-! ## One block -/

/-- How a call on an engine ends: a value, an error returned, or a panic. -/
inductive Call (ε α : Type) where
  | ok (a : α)
  | err (e : ε)
  | panic
deriving DecidableEq, Repr

/-- The panic or error of a first step, or a second one. -/
def Call.bind {ε α β : Type} : Call ε α → (α → Call ε β) → Call ε β
  | .ok a, f => f a
  | .err e, _ => .err e
  | .panic, _ => .panic

/-- engine/src/lib.rs:144-148 `State`. `ρ` is `GenerationResults` (137-142). -/
inductive EngineState (ρ : Type) where
  | notGenerated
  | parseOnly
  | generated (r : ρ)
deriving DecidableEq, Repr

/-- engine/src/lib.rs:269-273 `IncludeCppEngine`. The source text kept for diagnostics is left
out. -/
structure Engine (ρ : Type) where
  config : Config
  state : EngineState ρ
deriving DecidableEq, Repr

/-- engine/src/lib.rs:275-289 `parse`, once the configuration has been parsed. -/
def Engine.ofConfig {ρ : Type} (c : Config) : Engine ρ :=
  ⟨c, if c.parseOnly then .parseOnly else .notGenerated⟩

/-- engine/src/lib.rs:302-308 `new_for_autodiscover`. -/
def Engine.newForAutodiscover {ρ : Type} : Engine ρ := ⟨{}, .notGenerated⟩

/-- engine/src/lib.rs:310-316 `config_mut`, and what is then done to the configuration. -/
def Engine.configMut {ρ ε : Type} (f : Config → Config) (e : Engine ρ) : Call ε (Engine ρ) :=
  match e.state with
  | .notGenerated => .ok { e with config := f e.config }
  | _ => .panic

/-- What makes `generate` fail. -/
inductive GenErr where
  /-- `WrappedReferencesButNoArbitrarySelfTypes`. -/
  | wrappedReferences
  /-- Any failure of bindgen or of the conversion. -/
  | conversion
deriving DecidableEq, Repr

/-- engine/src/lib.rs:452-540 `generate`. `nightly` is whether autocxx was built by a nightly
compiler, `hash` is the hash of configurations, and `conv` is what bindgen and the conversion make
of the configuration. The panic for an undecided allowlist is that of `bindgen_allowlist`
(parser/src/config.rs:328), called by `make_bindgen_builder` (engine/src/lib.rs:374). -/
def Engine.generate {ρ : Type} (nightly : Bool) (hash : Config → Nat) (conv : Config → Option ρ)
    (e : Engine ρ) : Call GenErr (Engine ρ) :=
  match e.state with
  | .parseOnly => .ok e
  | .generated _ => .panic
  | .notGenerated =>
    if e.config.unsafePolicy = .referencesWrappedAllFunctionsSafe ∧ nightly = false then
      .err .wrappedReferences
    else
      match e.config.bindgenAllowlist hash with
      | none => .panic
      | some _ =>
        match conv e.config with
        | none => .err .conversion
        | some r => .ok { e with state := .generated r }

/-- engine/src/lib.rs:417-426 `get_rs_output`: the configuration and the Rust code (`none` for no
code at all). -/
def Engine.getRsOutput {ρ ε : Type} (e : Engine ρ) : Call ε (Config × Option ρ) :=
  match e.state with
  | .notGenerated => .panic
  | .generated r => .ok (e.config, some r)
  | .parseOnly => .ok (e.config, none)

/-- engine/src/lib.rs:543-549 `include_dirs` and 682-706 `generate_h_and_cxx`, as far as the state
is concerned. -/
def Engine.results {ρ ε : Type} (e : Engine ρ) : Call ε ρ :=
  match e.state with
  | .generated r => .ok r
  | _ => .panic

/-! ## Source files -/

/-- The part of a `syn::Attribute` behind the path. -/
inductive AttrMeta where
  | pathOnly
  | list (toks : List Tok)
  | nameValue
deriving Repr

/-- `syn::Attribute`. Simplification: the path is its identifiers, and whether it starts with
`::`. -/
structure Attr where
  leading : Bool := false
  path : List Ident
  args : AttrMeta := .pathOnly
deriving Repr

/-- `syn::Item`, as far as `parse_file_contents` looks. `α` is everything else about an item. -/
inductive FileItem (α : Type) where
  | macroCall (path : List Ident) (body : List Tok) (item : α)
  | module (attrs : List Attr) (name : Ident) (items : List (FileItem α)) (item : α)
  | moduleDecl (attrs : List Attr) (name : Ident) (item : α)
  | struct (attrs : List Attr) (name : Ident) (item : α)
  | other (item : α)

/-- engine/src/ast_discoverer.rs:27-32 `Discoveries`. -/
structure Discoveries where
  cppList : List String := []
  rustFuns : List RustFun := []
  rustTypes : List RustPath := []
deriving DecidableEq, Repr

/-- `IndexSet::insert`. -/
def insertNew (l : List String) (s : String) : List String := if s ∈ l then l else l ++ [s]

/-- engine/src/ast_discoverer.rs:65-69 `extend`. -/
def Discoveries.extend (a b : Discoveries) : Discoveries :=
  ⟨b.cppList.foldl insertNew a.cppList, a.rustFuns ++ b.rustFuns, a.rustTypes ++ b.rustTypes⟩

/-- engine/src/ast_discoverer.rs:61-63 `found_rust`. -/
def Discoveries.foundRust (d : Discoveries) : Bool := !d.rustFuns.isEmpty || !d.rustTypes.isEmpty

/-- engine/src/ast_discoverer.rs:57-59 `found_allowlist`. -/
def Discoveries.foundAllowlist (d : Discoveries) : Bool := !d.cppList.isEmpty

/-- engine/src/ast_discoverer.rs:34-42 `DiscoveryErr`. -/
inductive DiscoveryErr where
  | withoutClearReceiver
  | noParameterOnMethod
  | withinMod
deriving DecidableEq, Repr

/-- engine/src/parse_file.rs:27-62 `ParseError`, as far as it arises here. -/
inductive FileErr where
  | macroParsing (e : PErr)
  | subclassSyntax (e : Option PErr)
  | superclassWithoutAutoAllowlist
  | discovery (e : DiscoveryErr)
  | conflictingAllowlist
  | multipleMods
deriving DecidableEq, Repr

/-- engine/src/parse_file.rs:273-279 `Segment`. -/
inductive Segment (ρ α : Type) where
  | autocxx (e : Engine ρ)
  | cxx (item : α)
  | module (l : List (Segment ρ α))
  | other

/-- engine/src/parse_file.rs:85-90 `State`. -/
structure FileState (ρ α : Type) where
  results : List (Segment ρ α)
  extraSuperclasses : List SubclassReq
  discoveries : Discoveries

/-- `State::default()`. -/
def FileState.empty {ρ α : Type} : FileState ρ α := ⟨[], [], {}⟩

/-- engine/src/parse_file.rs:114-118: the attribute is `#[cxx::bridge]`. The printed path has
generic arguments and a leading `::` if there are any. -/
def Attr.isBridge (a : Attr) : Bool := !a.leading && decide (a.path = ["cxx", "bridge"])

/-- engine/src/parse_file.rs:147-153: the attribute is `#[subclass]` or `#[is_subclass]`. -/
def Attr.isSubclass (a : Attr) : Bool :=
  a.path.getLast? = some "is_subclass" || a.path.getLast? = some "subclass"

/-- engine/src/parse_file.rs:154-179: the superclass named by an attribute of a struct. -/
def structSuperclass (auto : Bool) (name : Ident) (attrs : List Attr) :
    Except FileErr (List SubclassReq) :=
  match attrs.find? Attr.isSubclass with
  | none => .ok []
  | some a =>
    match a.args with
    | .pathOnly => .ok []
    | .nameValue => .error (.subclassSyntax none)
    | .list toks =>
      match parseSubclassAttrs toks with
      | .error e => .error (.subclassSyntax (some e))
      | .ok args =>
        match args.superclass with
        | none => .ok []
        | some s =>
          if auto then .ok [⟨s, name⟩] else .error .superclassWithoutAutoAllowlist

/-- The search of items for things to discover: engine/src/ast_discoverer.rs:45-55
`Discoveries::search_item`. -/
abbrev Search (α : Type) := Option RustPath → α → Discoveries → Except DiscoveryErr Discoveries

/-- Search an item which is not a block, a bridge or a module: engine/src/parse_file.rs:180-190. -/
def FileState.searchOther {ρ α : Type} (search : Search α) (modPath : Option RustPath) (item : α)
    (st : FileState ρ α) : Except FileErr (FileState ρ α) :=
  match search modPath item st.discoveries with
  | .error e => .error (.discovery e)
  | .ok d => .ok { st with discoveries := d, results := st.results ++ [.other] }

/-- engine/src/parse_file.rs:127-130: the path of a module within another. -/
def deeperPath (modPath : Option RustPath) (name : Ident) : RustPath :=
  match modPath with
  | none => [name]
  | some p => p ++ [name]

mutual
/-- engine/src/parse_file.rs:93-194 `parse_item`. -/
def parseItem {ρ α : Type} (search : Search α) (auto : Bool) (modPath : Option RustPath)
    (st : FileState ρ α) : FileItem α → Except FileErr (FileState ρ α)
  | .macroCall path body item =>
    if path.getLast? = some "include_cpp" then
      match parseConfig body with
      | .error e => .error (.macroParsing e)
      | .ok c => .ok { st with results := st.results ++ [.autocxx (Engine.ofConfig c)] }
    else st.searchOther search modPath item
  | .module attrs name items item =>
    if attrs.any Attr.isBridge then .ok { st with results := st.results ++ [.cxx item] }
    else
      match parseItems search auto (some (deeperPath modPath name)) FileState.empty items with
      | .error e => .error e
      | .ok m =>
        .ok ⟨st.results ++ [.module m.results], st.extraSuperclasses ++ m.extraSuperclasses,
          st.discoveries.extend m.discoveries⟩
  | .moduleDecl attrs _ item =>
    if attrs.any Attr.isBridge then .ok { st with results := st.results ++ [.cxx item] }
    else .ok { st with results := st.results ++ [.other] }
  | .struct attrs name item =>
    match structSuperclass auto name attrs with
    | .error e => .error e
    | .ok l =>
      FileState.searchOther search modPath item
        { st with extraSuperclasses := st.extraSuperclasses ++ l }
  | .other item => st.searchOther search modPath item
/-- engine/src/parse_file.rs:131-137 and 200-202: the items of a module or of the file. -/
def parseItems {ρ α : Type} (search : Search α) (auto : Bool) (modPath : Option RustPath)
    (st : FileState ρ α) : List (FileItem α) → Except FileErr (FileState ρ α)
  | [] => .ok st
  | i :: r =>
    match parseItem search auto modPath st i with
    | .error e => .error e
    | .ok st => parseItems search auto modPath st r
end

/-- The blocks at the top of the file: engine/src/parse_file.rs:222-225. -/
def topEngines {ρ α : Type} (l : List (Segment ρ α)) : List (Engine ρ) :=
  l.filterMap fun
    | .autocxx e => some e
    | _ => none

/-- Change the first block at the top of the file. -/
def updateFirst {ρ α : Type} (e : Engine ρ) : List (Segment ρ α) → List (Segment ρ α)
  | [] => []
  | .autocxx _ :: r => .autocxx e :: r
  | s :: r => s :: updateFirst e r

/-- engine/src/parse_file.rs:234-242: discovered items are pushed on the allowlist one by one. -/
def pushAll (a : Allowlist) : List String → Option Allowlist
  | [] => some a
  | s :: r => (a.push (.item s)).bind fun a => pushAll a r

/-- engine/src/parse_file.rs:229-251: what has been discovered is given to one block. -/
def attach {ρ : Type} (auto : Bool) (supers : List SubclassReq) (d : Discoveries) (e : Engine ρ) :
    Call FileErr (Engine ρ) :=
  (Engine.configMut (fun c => { c with subclasses := c.subclasses ++ supers }) e).bind fun e =>
    match (if auto then pushAll e.config.allowlist d.cppList else some e.config.allowlist) with
    | none => .err .conflictingAllowlist
    | some a =>
      .ok { e with config := { e.config with
        allowlist := a,
        externRustFuns := e.config.externRustFuns ++ d.rustFuns,
        rustTypes := e.config.rustTypes ++ d.rustTypes } }

/-- engine/src/parse_file.rs:210-212. -/
def mustHandle {ρ α : Type} (auto : Bool) (st : FileState ρ α) : Bool :=
  st.discoveries.foundRust || !st.extraSuperclasses.isEmpty ||
    (auto && st.discoveries.foundAllowlist)

/-- engine/src/parse_file.rs:216-256: everything discovered in the file is given to the first block
at its top, which is made if there is none; a second one is an error. -/
def handleDiscovered {ρ α : Type} (auto : Bool) (st : FileState ρ α) :
    Call FileErr (List (Segment ρ α)) :=
  if mustHandle auto st then
    let results := if (topEngines st.results).isEmpty then
        st.results ++ [.autocxx Engine.newForAutodiscover] else st.results
    match topEngines results with
    | [] => .panic
    | e :: others =>
      (attach auto st.extraSuperclasses st.discoveries e).bind fun e =>
        if others.isEmpty then .ok (updateFirst e results) else .err .multipleMods
  else .ok st.results

/-- engine/src/parse_file.rs:257-263. -/
def confirmTop {ρ α : Type} : Segment ρ α → Segment ρ α
  | .autocxx e => .autocxx { e with config := e.config.confirmComplete }
  | s => s

/-- engine/src/parse_file.rs:79-265 `parse_file_contents`. -/
def parseFile {ρ α : Type} (search : Search α) (auto : Bool) (items : List (FileItem α)) :
    Call FileErr (List (Segment ρ α)) :=
  match parseItems search auto none FileState.empty items with
  | .error e => .err e
  | .ok st => (handleDiscovered auto st).bind fun r => .ok (r.map confirmTop)

mutual
/-- engine/src/parse_file.rs:290-304 `get_autocxxes`, for one segment. -/
def Segment.engines {ρ α : Type} : Segment ρ α → List (Engine ρ)
  | .autocxx e => [e]
  | .module l => segEngines l
  | _ => []
/-- engine/src/parse_file.rs:290-304 `get_autocxxes`. -/
def segEngines {ρ α : Type} : List (Segment ρ α) → List (Engine ρ)
  | [] => []
  | s :: r => s.engines ++ segEngines r
end

/-- A block or a bridge. -/
inductive CppItem (ρ α : Type) where
  | engine (e : Engine ρ)
  | bridge (item : α)

mutual
/-- engine/src/parse_file.rs:313-333 `get_cpp_buildables`, for one segment. -/
def Segment.buildables {ρ α : Type} : Segment ρ α → List (CppItem ρ α)
  | .autocxx e => [.engine e]
  | .cxx a => [.bridge a]
  | .module l => segBuildables l
  | .other => []
/-- engine/src/parse_file.rs:313-333 `get_cpp_buildables`. -/
def segBuildables {ρ α : Type} : List (Segment ρ α) → List (CppItem ρ α)
  | [] => []
  | s :: r => s.buildables ++ segBuildables r
end

/-- What makes `resolve_all` fail. -/
inductive ResolveErr where
  | conflictingModNames
  | codegen (e : GenErr)
deriving DecidableEq, Repr

/-- engine/src/parse_file.rs:388-399: one block. -/
def resolveEngine {ρ : Type} (nightly : Bool) (hash : Config → Nat) (conv : Config → Option ρ)
    (found : List Ident) (e : Engine ρ) : Call ResolveErr (Engine ρ × List Ident) :=
  if e.config.getModName ∈ found then .err .conflictingModNames
  else
    match e.generate nightly hash conv with
    | .ok e' => .ok (e', found ++ [e.config.getModName])
    | .err x => .err (.codegen x)
    | .panic => .panic

mutual
/-- engine/src/parse_file.rs:371-403 `resolve_all`, for one segment. -/
def Segment.resolve {ρ α : Type} (nightly : Bool) (hash : Config → Nat) (conv : Config → Option ρ)
    (found : List Ident) : Segment ρ α → Call ResolveErr (Segment ρ α × List Ident)
  | .autocxx e => (resolveEngine nightly hash conv found e).bind fun r => .ok (.autocxx r.1, r.2)
  | .module l => (resolveAll nightly hash conv found l).bind fun r => .ok (.module r.1, r.2)
  | .cxx a => .ok (.cxx a, found)
  | .other => .ok (.other, found)
/-- engine/src/parse_file.rs:371-403 `resolve_all`; `found` are the module names seen so far. -/
def resolveAll {ρ α : Type} (nightly : Bool) (hash : Config → Nat) (conv : Config → Option ρ)
    (found : List Ident) :
    List (Segment ρ α) → Call ResolveErr (List (Segment ρ α) × List Ident)
  | [] => .ok ([], found)
  | s :: r =>
    (s.resolve nightly hash conv found).bind fun x =>
      (resolveAll nightly hash conv x.2 r).bind fun y => .ok (x.1 :: y.1, y.2)
end

end Verif
