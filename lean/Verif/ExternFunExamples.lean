import Verif.ConvertErrProps
import Verif.RsGenExamples

/-!
# C70: whole runs with Rust functions offered to C++
-/

set_option autoImplicit false

namespace Verif

/-- The signatures of these runs: by the text of their parameters. -/
def exRustSig (s : RustSig) : RustFnSig :=
  if s.inputs = "self: &A" then ⟨[.typed (.ref false (.path ["A"] .none))], none⟩
  else if s.inputs = "self: &B" then ⟨[.typed (.ref false (.path ["B"] .none))], none⟩
  else if s.inputs = "n: isize" then ⟨[.typed (.path ["isize"] .none)], none⟩
  else if s.inputs = "a: &p::A" then ⟨[.typed (.ref false (.path ["p", "A"] .none))], none⟩
  else ⟨[], none⟩

/-- The error a run ends with. -/
def PassRun.failure {α : Type} : PassRun (Except ConvertErr α) → Option ConvertErr
  | .done (.error e) => some e
  | _ => none

/-- The settings of these runs: two types of Rust, and functions. -/
def exOfferCfg (l : List RustFun) : Config :=
  { allowlist := .specific [], rustTypes := [["A"], ["B"]], externRustFuns := l, excludeUtilities := true }

def exGoA : RustFun := ⟨["A", "go"], ⟨"go", "self: &A", none⟩, true⟩
def exGoB : RustFun := ⟨["B", "go"], ⟨"go", "self: &B", none⟩, true⟩
def exStop : RustFun := ⟨["stop"], ⟨"stop", "", none⟩, false⟩
def exSize : RustFun := ⟨["size"], ⟨"size", "n: isize", none⟩, false⟩

/-- A run on an empty header. -/
def exOffer (l : List RustFun) : PassRun (Except ConvertErr (RsFile × Option CppFilePair)) :=
  convertAll 100 (fun _ => 0) exRustSig .allFunctionsSafe (exOfferCfg l) false (.ofEvents [.foundMod 0 "root" none])
    (some [.mod "root" []]) { headerNamer := fun s => s } "cxxgen.h" "" ["input.h"]

set_option maxRecDepth 10000 in
set_option synthInstance.maxSize 1024 in
/-- A method of a Rust type and a function of Rust are offered to C++. -/
theorem exOffer_run : (exOffer [exGoA, exStop]).rust.map (fun f => (f.externRust, f.globals)) = some
    ([.rustFn exGoA.sig, .rustFn exStop.sig, .type "A", .type "B"], [.use ["stop"], .use ["A"], .use ["B"]]) := by
  decide_run

set_option maxRecDepth 10000 in
set_option synthInstance.maxSize 1024 in
/-- **C70 is false**: two types of Rust both have a method `go` which is offered to C++. Each signature is accepted, and
the run succeeds, but the bridge has neither of the methods: they are taken for the same. -/
theorem same_method_false :
    assembleExternFunDeps (exRustSig exGoA.sig) = some (.ok [⟨[], "A"⟩]) ∧
    assembleExternFunDeps (exRustSig exGoB.sig) = some (.ok [⟨[], "B"⟩]) ∧
    (exOffer [exGoA, exGoB, exStop]).rust.map (·.externRust) = some [.rustFn exStop.sig, .type "A", .type "B"] := by
  refine ⟨rfl, rfl, ?_⟩
  decide_run

set_option maxRecDepth 10000 in
set_option synthInstance.maxSize 1024 in
/-- **C70 is false**: a function of Rust which takes an `isize` is offered to C++. Its signature is accepted, and the run
succeeds, but the bridge does not have the function: `isize`, which `cxx` supports, is taken for an unknown type. -/
theorem isize_function_false :
    assembleExternFunDeps (exRustSig exSize.sig) = some (.ok [⟨[], "isize"⟩]) ∧
    (exOffer [exSize, exStop]).rust.map (·.externRust) = some [.rustFn exStop.sig, .type "A", .type "B"] := by
  refine ⟨rfl, ?_⟩
  decide_run

set_option maxRecDepth 10000 in
set_option synthInstance.maxSize 1024 in
/-- A run ends with an error if a function is offered which takes a type with a path, and if an item is asked for which
is not there. -/
theorem exFailure_run :
    (exOffer [exStop, ⟨["a", "go"], ⟨"go", "a: &p::A", none⟩, false⟩]).failure = some (.rust .namespacesNotSupported) ∧
    (exConvert (exRunCfg ["X"] []) [.foundMod 0 "root" none] [.mod "root" []]).failure =
      some (.cpp (.didNotGenerateAnything "X")) := by
  decide_run

end Verif
