import Verif.AMap
import Verif.Str
import Verif.ParseFile

/-!
# Where generated Rust code is written and found

`FileLocationStrategy` (parser/src/file_locations.rs), used by the build script to write files and by
the `include_cpp!` macro to find them, and `MultiBindings` (parser/src/multi_bindings.rs), the archive
of several blocks' bindings. Paths are those of Unix. Variables which are not valid Unicode are left
out.
-/

set_option autoImplicit false

namespace Verif

/-- The environment variables which are looked at: parser/src/file_locations.rs:38-42. -/
structure LocEnv where
  jsonArchive : Option String := none
  rsFile : Option String := none
  rs : Option String := none
  outDir : Option String := none
deriving DecidableEq, Repr

/-- parser/src/file_locations.rs:29-36 `FileLocationStrategy`. -/
inductive Strategy where
  | custom (dir : String)
  | rsFile (file : String)
  | rs (dir : String)
  | outDir (dir : String)
  | jsonArchive (files : String)
  | unknown
deriving DecidableEq, Repr

/-- parser/src/file_locations.rs:45-59 `new`. -/
def Strategy.new (e : LocEnv) : Strategy :=
  match e.jsonArchive with
  | some f => .jsonArchive f
  | none =>
    match e.rsFile with
    | some f => .rsFile f
    | none =>
      match e.rs with
      | some d => .rs d
      | none =>
        match e.outDir with
        | some d => .outDir d
        | none => .unknown

/-- A path which starts at the root. -/
def absolute (p : String) : Bool := p.toList.head? = some '/'

/-- `Path::join` (Unix). -/
def joinPath (a b : String) : String :=
  if absolute b then b
  else if a.toList = [] ∨ a.toList.getLast? = some '/' then a ++ b
  else a ++ "/" ++ b

/-- parser/src/file_locations.rs:109-125 `get_gen_dir`: `none` is a panic. -/
def Strategy.genDir (s : Strategy) (suffix : String) : Option String :=
  match s with
  | .custom d => some (joinPath d suffix)
  | .rs d => some (joinPath d suffix)
  | .outDir d => some (joinPath (joinPath d "autocxx-build-dir") suffix)
  | .unknown => none
  | .rsFile _ => none
  | .jsonArchive _ => none

/-- parser/src/file_locations.rs:128-130 `get_rs_dir`. -/
def Strategy.rsDir (s : Strategy) : Option String := s.genDir "rs"

/-- parser/src/file_locations.rs:133-135 `get_include_dir`. -/
def Strategy.includeDir (s : Strategy) : Option String := s.genDir "include"

/-- parser/src/file_locations.rs:138-140 `get_cxx_dir`. -/
def Strategy.cxxDir (s : Strategy) : Option String := s.genDir "cxx"

/-- engine/src/builder.rs:228-231: the build script's strategy. -/
def builderStrategy (custom : Option String) (e : LocEnv) : Strategy :=
  match custom with
  | none => Strategy.new e
  | some d => .custom d

/-- The file a build script writes a block's Rust code to: engine/src/builder.rs:236 and 293-296,
with `write_to_file` (321-332). `none` is a panic. -/
def builderRsPath (custom : Option String) (e : LocEnv) (fname : String) : Option String :=
  (builderStrategy custom e).rsDir.map fun d => joinPath d fname

/-- The environment of the macro: that of the build script, with the variable which the build script
asks cargo to set: parser/src/file_locations.rs:144-152 `set_cargo_env_vars_for_build`. -/
def macroEnv (custom : Option String) (e : LocEnv) : LocEnv :=
  match builderStrategy custom e with
  | .custom d =>
    match (Strategy.custom d).rsDir with
    | some r => { e with rs := some r }
    | none => e
  | _ => e

/-! ## Archives -/

/-- parser/src/multi_bindings.rs:24 `MultiBindings`. -/
abbrev MultiBindings := AMap Nat String

/-- parser/src/multi_bindings.rs:38-40 `insert`. `print` is `TokenStream::to_string`. -/
def MultiBindings.insert {τ : Type} (hash : Config → Nat) (print : τ → String) (m : MultiBindings)
    (c : Config) (bindings : τ) : MultiBindings :=
  AMap.insert m (hash c) (print bindings)

/-- parser/src/multi_bindings.rs:28-34 `MultiBindingsErr`. -/
inductive MultiBindingsErr where
  | missing
  | notParseable
deriving DecidableEq, Repr

/-- parser/src/multi_bindings.rs:43-50 `get`. `parse` is `str::parse::<TokenStream>`. -/
def MultiBindings.get {τ : Type} (hash : Config → Nat) (parse : String → Option τ)
    (m : MultiBindings) (c : Config) : Except MultiBindingsErr τ :=
  match AMap.get? m (hash c) with
  | none => .error .missing
  | some s =>
    match parse s with
    | none => .error .notParseable
    | some t => .ok t

/-- engine/src/output_generators.rs:24-30 `generate_rs_archive`. -/
def rsArchive {τ : Type} (hash : Config → Nat) (print : τ → String) (l : List (Config × τ)) :
    MultiBindings :=
  l.foldl (fun m x => MultiBindings.insert hash print m x.1 x.2) []

/-! ## What the macro makes of a block -/

/-- `std::env::split_paths` (Unix). -/
def splitColons : List Char → List (List Char)
  | [] => [[]]
  | c :: r =>
    if c = ':' then [] :: splitColons r
    else
      match splitColons r with
      | [] => [[c]]
      | h :: t => (c :: h) :: t

/-- The code a block becomes. -/
inductive Include (τ : Type) where
  /-- Nothing. -/
  | empty
  /-- `include!("path")`. -/
  | file (path : String)
  /-- `include!(concat!(env!("OUT_DIR"), "path"))`. -/
  | inOutDir (path : String)
  /-- The bindings themselves. -/
  | bindings (t : τ)
deriving DecidableEq, Repr

/-- parser/src/file_locations.rs:98-105: the bindings of a block in the first of some archives which
can be opened (`files` gives the contents of those, `none` when they are not an archive). Every
failure is a panic. -/
def archiveBindings {τ : Type} (hash : Config → Nat) (parse : String → Option τ)
    (files : String → Option (Option MultiBindings)) (paths : String) (c : Config) : Option τ :=
  match ((splitColons paths.toList).map String.ofList).filterMap files with
  | some m :: _ =>
    match MultiBindings.get hash parse m c with
    | .ok t => some t
    | .error _ => none
  | _ => none

/-- parser/src/file_locations.rs:68-107 `make_include`: `none` is a panic. -/
def Strategy.makeInclude {τ : Type} (hash : Config → Nat) (parse : String → Option τ)
    (files : String → Option (Option MultiBindings)) (s : Strategy) (c : Config) :
    Option (Include τ) :=
  match s with
  | .rs d => some (.file (joinPath d c.rsFilename))
  | .custom _ => none
  | .unknown => some (.inOutDir ("/autocxx-build-dir/rs/" ++ c.rsFilename))
  | .outDir _ => some (.inOutDir ("/autocxx-build-dir/rs/" ++ c.rsFilename))
  | .rsFile f => some (.file f)
  | .jsonArchive paths => (archiveBindings hash parse files paths c).map .bindings

/-- parser/src/lib.rs:60-65 `generate_rs`, called by `include_cpp_impl` (macro/src/lib.rs:22-25). -/
def generateRs {τ : Type} (hash : Config → Nat) (parse : String → Option τ)
    (files : String → Option (Option MultiBindings)) (e : LocEnv) (c : Config) :
    Option (Include τ) :=
  if c.parseOnly then some .empty else (Strategy.new e).makeInclude hash parse files c

/-! ## What the compiler and the system make of paths -/

/-- The names in a path, as the system reads it: empty names mean nothing. -/
def pathNames : List Char → List (List Char)
  | [] => []
  | c :: r =>
    if c = '/' then pathNames r
    else (c :: r.takeWhile (· ≠ '/')) :: pathNames (r.dropWhile (· ≠ '/'))
termination_by l => l.length
decreasing_by
  · simp
  · have := (List.dropWhile_sublist (l := r) (· ≠ '/')).length_le
    simp only [List.length_cons]
    omega

/-- The file a path means in a directory. -/
def locate (base : List (List Char)) (p : String) : List (List Char) :=
  if absolute p then pathNames p.toList else base ++ pathNames p.toList

/-- The Rust code which a block compiles to. -/
inductive Compiled (τ : Type) where
  | empty
  /-- The contents of a file. -/
  | file (names : List (List Char))
  | bindings (t : τ)
deriving DecidableEq, Repr

/-- Rust's `include!` (relative to the directory of the source file) and `env!` (a compile error
if the variable is not set: `none`). -/
def Include.compile {τ : Type} (e : LocEnv) (srcDir : List (List Char)) :
    Include τ → Option (Compiled τ)
  | .empty => some .empty
  | .file p => some (.file (locate srcDir p))
  | .inOutDir p => e.outDir.map fun d => .file (locate srcDir (d ++ p))
  | .bindings t => some (.bindings t)

/-- What a block compiles to after a build script has run: `none` is a failure of the macro or of
the compiler. -/
def macroReads {τ : Type} (hash : Config → Nat) (parse : String → Option τ)
    (files : String → Option (Option MultiBindings)) (custom : Option String) (e : LocEnv)
    (srcDir : List (List Char)) (c : Config) : Option (Compiled τ) :=
  (generateRs hash parse files (macroEnv custom e) c).bind
    (Include.compile (macroEnv custom e) srcDir)

end Verif
