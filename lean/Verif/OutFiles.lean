import Verif.Str

/-!
# Output files

The part of the command line generator (gen/cmd) and of the build-script builder
(engine/src/builder.rs) which names and writes the generated files, the depfile
(gen/cmd/src/depfile.rs), the header namers and clang arguments (engine/src/lib.rs), and the
build-script dependency recorder (gen/build/src/lib.rs).

File contents are strings rather than bytes. The operating system is an argument: it decides at
every write whether the old content can be read, whether the file can be created and how much of
the content gets written, so every crash point is covered.
-/

set_option autoImplicit false

namespace Verif

/-! ## The operating system -/

/-- What the operating system lets one `write_to_file` do (gen/cmd/src/main.rs:430-452,
engine/src/builder.rs:321-337): read the existing file, create the file, and write the whole
content (`none`) or only the first so many characters before failing. -/
structure Io where
  readable : Bool
  creatable : Bool
  kept : Option Nat
deriving DecidableEq, Repr

/-- Nothing goes wrong. -/
def Io.works : Io := ⟨true, true, none⟩

/-- A directory: the content of each file. -/
abbrev Files := String → Option String

/-- `File::create` and `write_all`: the file has this content now. -/
def Files.put (f : Files) (name content : String) : Files :=
  fun n => if n = name then some content else f n

/-! ## The depfile -/

/-- gen/cmd/src/depfile.rs:17-22 `Depfile`. The open file is not modelled; the text written to it
is what `Depfile.text` gives. -/
structure Depfile where
  outputs : List String
  dependencies : List String
deriving DecidableEq, Repr

/-- gen/cmd/src/depfile.rs:25-33 `Depfile::new`. -/
def Depfile.new : Depfile := ⟨[], []⟩

/-- gen/cmd/src/depfile.rs:35-37 `add_dependency`. `rel` is `relativize` (53-59): the path of a
file as seen from the directory of the depfile, if there is one; `none` is a panic there. -/
def Depfile.addDependency (rel : String → Option String) (d : Depfile) (dep : String) :
    Option Depfile :=
  (rel dep).map fun r => { d with dependencies := d.dependencies ++ [r] }

/-- gen/cmd/src/depfile.rs:39-41 `add_output`. -/
def Depfile.addOutput (rel : String → Option String) (d : Depfile) (out : String) :
    Option Depfile :=
  (rel out).map fun r => { d with outputs := d.outputs ++ [r] }

/-- Rust `join`: the strings one after the other with a separator between them. -/
def joinSep (sep : String) : List String → String
  | [] => ""
  | [a] => a
  | a :: b :: r => a ++ sep ++ joinSep sep (b :: r)

/-- gen/cmd/src/depfile.rs:46-48: the rule for one output. -/
def Depfile.rule (d : Depfile) (output : String) : String :=
  output ++ ": " ++ joinSep " \\\n  " d.dependencies ++ "\n\n"

/-- gen/cmd/src/depfile.rs:43-50 `write`: one rule for every output. -/
def Depfile.text (d : Depfile) : String := joinSep "" (d.outputs.map d.rule)

/-! ## The file writer of the command line generator -/

/-- What stops the command line generator. -/
inductive MainErr where
  /-- `File::create` failed. -/
  | create
  /-- `write_all` failed. -/
  | write
  /-- "would write two files entitled ..." -/
  | conflict (name : String)
  /-- No relative path from the depfile: a panic. -/
  | relativize
  /-- "files were generated. Increase the value passed to --generate-exact" -/
  | tooMany (counter : Nat)
  /-- "gen-rs-include and generate-exact requires fix-rs-include-name." -/
  | needsFixedName
  /-- "Cannot generate C++ in parse-only mode": a panic. -/
  | parseOnly
  /-- "Unable to generate header and C++ code": a panic. -/
  | cxxGen
deriving DecidableEq, Repr

/-- gen/cmd/src/main.rs:404-408 `FileWriter`, with the directory it writes to. `touched` are the
names of the files modified so far and `clock` the number of calls, which is what the operating
system is asked by. -/
structure Writer where
  files : Files
  touched : List String
  depfile : Option Depfile
  written : List String
  clock : Nat

/-- A writer at the start of a run (gen/cmd/src/main.rs:303-307). -/
def Writer.start (files : Files) (depfile : Option Depfile) : Writer := ⟨files, [], depfile, [], 0⟩

/-- The file is created with this content. -/
def Writer.put (w : Writer) (name content : String) : Writer :=
  { w with files := w.files.put name content, touched := w.touched ++ [name] }

/-- gen/cmd/src/main.rs:432-434: `Writer` after the name has been recorded in the depfile. -/
def Writer.record (rel : String → Option String) (w : Writer) (name : String) : Option Writer :=
  match w.depfile with
  | none => some { w with clock := w.clock + 1 }
  | some d => (d.addOutput rel name).map fun d => { w with depfile := some d, clock := w.clock + 1 }

/-- gen/cmd/src/main.rs:430-452 `write_to_file`. -/
def writeToFile (io : Nat → Io) (rel : String → Option String) (w : Writer)
    (name content : String) : Writer × Option MainErr :=
  let t := io w.clock
  match w.record rel name with
  | none => (w, some .relativize)
  | some w =>
    if t.readable && decide (w.files name = some content) then (w, none)
    else if !t.creatable then (w, some .create)
    else
      match t.kept with
      | some k => (w.put name (String.ofList (content.toList.take k)), some .write)
      | none =>
        let w := w.put name content
        if name ∈ w.written then (w, some (.conflict name))
        else ({ w with written := w.written ++ [name] }, none)

/-- One thing `main` does with the output directory. Nothing it does depends on what is in the
directory, so the run is a list of these. -/
inductive Action where
  | write (name content : String)
  | fail (e : MainErr)
deriving DecidableEq, Repr

/-- The actions one after the other, until one fails (the `?` operators of
gen/cmd/src/main.rs:308-376). -/
def runActions (io : Nat → Io) (rel : String → Option String) (w : Writer) :
    List Action → Writer × Option MainErr
  | [] => (w, none)
  | .fail e :: _ => (w, some e)
  | .write name content :: r =>
    match writeToFile io rel w name content with
    | (w, some e) => (w, some e)
    | (w, none) => runActions io rel w r

/-- gen/cmd/src/main.rs:27 `BLANK`. -/
def blank : String := "// Blank autocxx placeholder"

/-- gen/cmd/src/main.rs:421-425: the loop making placeholders. -/
def placeholderLoop (filename : Nat → String) (counter : Nat) : Nat → List Action
  | 0 => []
  | n + 1 => .write (filename counter) blank :: placeholderLoop filename (counter + 1) n

/-- gen/cmd/src/main.rs:411-428 `write_placeholders`. -/
def writePlaceholders (counter : Nat) (desired : Option Nat) (filename : Nat → String) :
    List Action :=
  match desired with
  | none => []
  | some n =>
    if counter > n then [.fail (.tooMany counter)]
    else placeholderLoop filename counter (n - counter)

/-! ## Names -/

/-- gen/cmd/src/main.rs:383-385. -/
def nameAutocxxgenH (counter : Nat) : String := "autocxxgen" ++ Nat.repr counter ++ ".h"

/-- gen/cmd/src/main.rs:387-389. -/
def nameCxxgenH (counter : Nat) : String := "gen" ++ Nat.repr counter ++ ".h"

/-- gen/cmd/src/main.rs:391-393. -/
def nameIncludeRs (counter : Nat) : String := "gen" ++ Nat.repr counter ++ ".include.rs"

/-- gen/cmd/src/main.rs:310 `name_cc_file`. -/
def nameCcFile (ext : String) (counter : Nat) : String := "gen" ++ Nat.repr counter ++ "." ++ ext

/-- The counters of the header namers: engine/src/lib.rs:784-802 (default) and
gen/cmd/src/main.rs:227-246 (when an exact number of files is wanted). -/
structure Namers where
  exact : Bool
  cxx : Nat
  autocxx : Nat
deriving DecidableEq, Repr

/-- The namers at the start of a run. -/
def Namers.start (exact : Bool) : Namers := ⟨exact, 0, 0⟩

/-- engine/src/lib.rs:784-809, gen/cmd/src/main.rs:238-244: the name of the next header made by
cxx. -/
def Namers.nameCxx (n : Namers) : String × Namers :=
  (if n.exact then nameCxxgenH n.cxx
    else if n.cxx = 0 then "cxxgen.h" else "cxxgen" ++ Nat.repr n.cxx ++ ".h",
   { n with cxx := n.cxx + 1 })

/-- engine/src/lib.rs:767-777, gen/cmd/src/main.rs:228-234: the name of the next header made by
autocxx. -/
def Namers.nameAutocxx (n : Namers) (modName : String) : String × Namers :=
  if n.exact then (nameAutocxxgenH n.autocxx, { n with autocxx := n.autocxx + 1 })
  else ("autocxxgen_" ++ modName ++ ".h", n)

/-! ## What there is to write -/

/-- engine/src/lib.rs:77-85 `CppFilePair`. -/
structure FilePair where
  header : String
  implementation : Option String
  headerName : String
deriving DecidableEq, Repr

/-- Something in the input files which results in C++ (engine/src/parse_file.rs:313-333
`get_cpp_buildables`), after generation. `cxx` is what `cxx_gen` makes of it, `none` if it fails
(engine/src/lib.rs:642-662); `cpp` is the extra C++ of autocxx, if there is any. -/
inductive Buildable where
  | autocxx (modName rsFile rs : String) (cxx : Option (String × String))
      (cpp : Option (String × Option String))
  | parseOnly (rsFile : String)
  | bridge (cxx : Option (String × String))
deriving DecidableEq, Repr

/-- A buildable once `resolve_all` has named the headers of `include_cpp!` blocks. -/
inductive ResolvedBlock where
  | autocxx (rsFile rs : String) (cxx : Option (String × String)) (cxxHeader : String)
      (cpp : Option FilePair)
  | parseOnly (rsFile : String)
  | bridge (cxx : Option (String × String))
deriving DecidableEq, Repr

/-- engine/src/conversion/mod.rs:185-198 and engine/src/conversion/codegen_cpp/mod.rs:236-247:
naming the headers of one `include_cpp!` block. -/
def resolveOne (n : Namers) : Buildable → ResolvedBlock × Namers
  | .autocxx m f rs cxx cpp =>
    let (h, n) := n.nameCxx
    match cpp with
    | none => (.autocxx f rs cxx h none, n)
    | some (hdr, impl) =>
      let (h2, n) := n.nameAutocxx m
      (.autocxx f rs cxx h (some ⟨hdr, impl, h2⟩), n)
  | .parseOnly f => (.parseOnly f, n)
  | .bridge cxx => (.bridge cxx, n)

/-- engine/src/parse_file.rs:371-403 `resolve_all`, over all input files
(gen/cmd/src/main.rs:280-293), as far as names are concerned. -/
def resolveNames (n : Namers) : List Buildable → List ResolvedBlock × Namers
  | [] => ([], n)
  | b :: r =>
    let (b, n) := resolveOne n b
    let (r, n) := resolveNames n r
    (b :: r, n)

/-- engine/src/lib.rs:682-706 and engine/src/cxxbridge.rs:37-44 `generate_h_and_cxx`. -/
def generateHAndCxx (n : Namers) : ResolvedBlock → Except MainErr (List FilePair) × Namers
  | .autocxx _ _ cxx h cpp =>
    match cxx with
    | none => (.error .cxxGen, n)
    | some (hdr, impl) => (.ok (⟨hdr, some impl, h⟩ :: cpp.toList), n)
  | .parseOnly _ => (.error .parseOnly, n)
  | .bridge cxx =>
    let (h, n) := n.nameCxx
    match cxx with
    | none => (.error .cxxGen, n)
    | some (hdr, impl) => (.ok [⟨hdr, some impl, h⟩], n)

/-- gen/cmd/src/main.rs:319-324: writing the pairs of one buildable. -/
def writePairs (ext : String) (counter : Nat) : List FilePair → List Action
  | [] => []
  | p :: r =>
    .write (nameCcFile ext counter) (p.implementation.getD "") ::
      .write p.headerName p.header :: writePairs ext (counter + 1) r

/-- gen/cmd/src/main.rs:311-325: writing all the C++; gives the final counter and namers too. -/
def writeBuildables (ext : String) (counter : Nat) (n : Namers) :
    List ResolvedBlock → List Action × Nat × Namers
  | [] => ([], counter, n)
  | b :: r =>
    match generateHAndCxx n b with
    | (.error e, n) => ([.fail e], counter, n)
    | (.ok ps, n) =>
      let rest := writeBuildables ext (counter + ps.length) n r
      (writePairs ext counter ps ++ rest.1, rest.2)

/-- engine/src/parse_file.rs:308-310 `get_rs_outputs`, engine/src/lib.rs:416-426 and
engine/src/output_generators.rs:41-46: the Rust files, name and content. -/
def rsOutputs (l : List ResolvedBlock) : List (String × String) :=
  l.filterMap fun
    | .autocxx f rs _ _ _ => some (f, rs)
    | .parseOnly f => some (f, "")
    | .bridge _ => none

/-- gen/cmd/src/main.rs:354-367: writing the Rust files. -/
def writeRs (fixName : Bool) (counter : Nat) : List (String × String) → List Action
  | [] => []
  | (f, code) :: r =>
    .write (if fixName then nameIncludeRs counter else f) code :: writeRs fixName (counter + 1) r

/-- The command line (gen/cmd/src/main.rs:88-211). `cxxH` and `archive` are the contents for
`cxx.h` and for the archive of all Rust outputs. -/
structure GenOptions where
  genCpp : Bool
  cppExtension : String
  genRsInclude : Bool
  genRsArchive : Bool
  generateExact : Option Nat
  fixRsIncludeName : Bool
  generateCxxH : Bool
deriving DecidableEq, Repr

/-- gen/cmd/src/main.rs:308-339: the C++ files, after the blocks have been resolved. -/
def cppActions (o : GenOptions) (bs : List ResolvedBlock) (n : Namers) : List Action :=
  if o.genCpp then
    let w := writeBuildables o.cppExtension 0 n bs
    w.1 ++ (writePlaceholders w.2.1 o.generateExact (nameCcFile o.cppExtension) ++
      (writePlaceholders w.2.2.cxx o.generateExact nameCxxgenH ++
        writePlaceholders w.2.2.autocxx o.generateExact nameAutocxxgenH))
  else []

/-- gen/cmd/src/main.rs:348-369: the Rust files. -/
def rsActions (o : GenOptions) (bs : List ResolvedBlock) : List Action :=
  if o.genRsInclude then
    if !o.fixRsIncludeName && o.generateExact.isSome then [.fail .needsFixedName]
    else
      let rs := rsOutputs bs
      writeRs o.fixRsIncludeName 0 rs ++
        writePlaceholders rs.length o.generateExact nameIncludeRs
  else []

/-- gen/cmd/src/main.rs:270-376: everything `main` writes to the output directory, in order. -/
def mainActions (o : GenOptions) (cxxH archive : String) (bs : List Buildable) : List Action :=
  let r := resolveNames (Namers.start o.generateExact.isSome) bs
  cppActions o r.1 r.2 ++
    ((if o.generateCxxH then [.write "cxx.h" cxxH] else []) ++
      (rsActions o r.1 ++
        (if o.genRsArchive then [.write "gen.rs.json" archive] else [])))

/-! ## The builder used in build scripts -/

/-- engine/src/builder.rs:321-337 `write_to_file`: the directory, the files modified, and whether
it worked. -/
def builderWrite (t : Io) (files : Files) (touched : List String) (name content : String) :
    Files × List String × Bool :=
  if t.readable && decide (files name = some content) then (files, touched, true)
  else if !t.creatable then (files, touched, false)
  else
    match t.kept with
    | some k => (files.put name (String.ofList (content.toList.take k)), touched ++ [name], false)
    | none => (files.put name content, touched ++ [name], true)

/-- A sequence of writes of the builder, until one fails. -/
def builderWrites (io : Nat → Io) (clock : Nat) (files : Files) (touched : List String) :
    List (String × String) → Files × List String × Bool
  | [] => (files, touched, true)
  | (name, content) :: r =>
    match builderWrite (io clock) files touched name content with
    | (f, t, false) => (f, t, false)
    | (f, t, true) => builderWrites io (clock + 1) f t r

/-- engine/src/builder.rs:275-286: what is written for the pairs of one block. -/
def builderPairs (counter : Nat) : List FilePair → List (String × String)
  | [] => []
  | p :: r =>
    (match p.implementation with
      | some i => [("cxx/gen" ++ Nat.repr counter ++ ".cxx", i)]
      | none => []) ++
    (("include/" ++ p.headerName, p.header) :: builderPairs (counter + 1) r)

/-- engine/src/builder.rs:271-287: what is written for all blocks; `none` if C++ cannot be
generated for one of them (an error, or the panic for parse-only blocks). -/
def builderCpp (counter : Nat) (n : Namers) :
    List ResolvedBlock → Option (List (String × String))
  | [] => some []
  | b :: r =>
    match generateHAndCxx n b with
    | (.error _, _) => none
    | (.ok ps, n) =>
      (builderCpp (counter + ps.length) n r).map fun rest => builderPairs counter ps ++ rest

/-- engine/src/builder.rs:221-298 `build_listing_files`: what is written to the directories
`include`, `cxx` and `rs`, in order. -/
def builderFiles (cxxH : String) (bs : List Buildable) : Option (List (String × String)) :=
  let r := resolveNames (Namers.start false) bs
  (builderCpp 0 r.2 r.1).map fun cpp =>
    ("include/cxx.h", cxxH) :: (cpp ++ (rsOutputs r.1).map fun p => ("rs/" ++ p.1, p.2))

/-! ## Compiler arguments and system headers -/

/-- engine/src/lib.rs:160 `AUTOCXX_CLANG_ARGS`. -/
def autocxxClangArgs : List String := ["-x", "c++", "-std=c++14", "-DBINDGEN"]

/-- engine/src/lib.rs:710-721 `make_clang_args`. -/
def makeClangArgs (incs extraArgs : List String) : List String :=
  autocxxClangArgs ++ incs.map (fun i => "-I" ++ i) ++ extraArgs

/-- Rust `str::lines`, first step: split after every line feed, which is dropped; there is no last
line if the text ends in a line feed. -/
def splitLines : List Char → List (List Char)
  | [] => []
  | c :: r =>
    if c = '\n' then [] :: splitLines r
    else
      match splitLines r with
      | [] => [[c]]
      | h :: t => (c :: h) :: t

/-- Rust `str::lines`, second step: a carriage return at the end of a line which ended in a line
feed is dropped too. -/
def stripCr (l : List Char) : List Char := (stripSuffixL ['\r'] l).getD l

/-- Rust `str::lines`. -/
def rustLines (s : String) : List String :=
  let ls := splitLines s.toList
  let ended := s.toList.getLast? = some '\n'
  (if ended then ls.map stripCr else ls.dropLast.map stripCr ++ ls.getLast?.toList).map
    String.ofList

/-- engine/src/lib.rs:668-680 `strip_system_headers`. -/
def stripSystemHeaders (input : String) (suppress : Bool) : String :=
  if suppress then
    joinSep "\n" ((rustLines input).filter fun l => !startsWith l "#include <")
  else input

/-! ## Dependencies reported by build scripts -/

/-- gen/build/src/lib.rs:34-36 `CargoRebuildDependencyRecorder`, with what it has printed. -/
structure Recorder where
  already : List String
  printed : List String
deriving DecidableEq, Repr

/-- gen/build/src/lib.rs:46-53 `record_header_file_dependency`. -/
def Recorder.record (r : Recorder) (filename : String) : Recorder :=
  if filename ∈ r.already then r
  else ⟨r.already ++ [filename], r.printed ++ ["cargo:rerun-if-changed=" ++ filename]⟩

/-- gen/build/src/lib.rs:38-44 `new`. -/
def Recorder.new : Recorder := ⟨[], []⟩

/-- engine/src/parse_callbacks.rs:270-274 `include_file`, through
engine/src/parse_file.rs:376-386,408-423 (every block has its own `CompositeDepRecorder`, all
passing on to the one recorder): the notifications of every block in turn. -/
def recordAll (r : Recorder) (blocks : List (List String)) : Recorder :=
  blocks.foldl (fun r files => files.foldl Recorder.record r) r

end Verif
