import Verif.RsSubProps
import Verif.RsFnExamples
import Verif.RsGenExamples

/-!
# C69, C66: functions with `unsafe` code, and a whole run with a subclass
-/

set_option autoImplicit false

namespace Verif

/-- Of the functions generated for a C++ function: whether they are `unsafe`, which statements may only be in `unsafe`
code, and which have no idle block; and whether those of the bridge are `unsafe`. -/
def exUnsafe (a : FnAnalysis) : Option (List (Bool × List (Bool × Bool)) × List Bool) :=
  (genFunction ⟨[], "f"⟩ a [⟨[], "Foo"⟩]).map fun r =>
    (r.fns.map fun it => (it.isUnsafe, it.body.map fun st => (st.exposed true, st.noIdleBlock true it.isUnsafe)),
      r.externC.map (·.isUnsafe))

instance : DecidableEq (Bool × List (Bool × Bool)) := inferInstance
instance : DecidableEq (List (Bool × List (Bool × Bool)) × List Bool) := inferInstance
instance : DecidableEq (Option (Option (List (Bool × List (Bool × Bool)) × List Bool))) := inferInstance

/-- `mix` calls an `unsafe` function of the bridge and does much else which is only allowed in `unsafe` code, but is safe
itself. If all functions are `unsafe` it has no
block, as the whole of it is one. -/
theorem mix_unsafe_witness : (exAnalysis .allFunctionsSafe false none exMix).map exUnsafe =
      some (some ([(false, [(false, true)])], [true])) ∧
    (exAnalysis .allFunctionsUnsafe false none exMix).map exUnsafe =
      some (some ([(true, [(true, true)])], [true])) := by
  rw [exAnalysis_lit, exAnalysis_lit]
  decide_known

/-! ## A subclass -/

/-- The functions which make up the trait of the superclass, in the root of the output module: for which subclass, whether
they are `unsafe`, their names and parameters, and what they call. -/
def RsFile.supers (f : RsFile) : List (Ident × List (Bool × Ident × List FnArg × Ident)) :=
  f.output.filterMap fun o =>
    match o with
    | .item (.implSupers _ s fns) => some (s, fns.map fun g => (g.isUnsafe, g.name, g.rest, g.callee))
    | _ => none

/-- The methods in the root of the output module with a name, with their parameters. -/
def RsFile.methodsCalled (f : RsFile) (n : Ident) : List (Ident × List SigParam) :=
  f.output.flatMap fun o =>
    match o with
    | .impl t l => l.filterMap fun m =>
      match m with
      | .fn g => if g.name = n then some (t, g.sig.params) else none
      | _ => none
    | _ => []

/-- The subclasses whose C++ side autocxx can make, in the root of the output module. -/
def RsFile.peersMade (f : RsFile) : List Ident :=
  f.output.filterMap fun o =>
    match o with
    | .item (.peerConstructor _ s _) => some s
    | _ => none

/-- What bindgen reports of
```cpp
struct D { int x; };
class C { public: virtual int f(D &&d); };
```
-/
def exMovedReports : List BindgenEvent :=
  [.foundMod 0 "root" none, .found 1 "C", .cppName 1 none (some 0), .found 2 "C_f_bindgen_original",
    .cppName 2 (some "f_bindgen_original") (some 0), .virtualness 2 .virtual, .found 3 "D", .cppName 3 none (some 0)]

/-- What bindgen writes for it. -/
def exMovedItems : List BindgenItem :=
  [.mod "root"
    [.struct "C" [("_address", false, .path ["u8"] [])] [],
      .struct "D" [("x", false, exCInt)] [],
      .foreignMod [.fn
        { ident := "C_f_bindgen_original"
          inputs := [.typed "this" (.ptr true (.path ["root", "C"] [])),
            .typed "d" (.path ["__bindgen_marker_RValueReference"] [.ptr true (.path ["root", "D"] [])])]
          output := some exCInt }],
      .impl (.path ["C"] []) [.fn "f_bindgen_original" [.call ["C_f_bindgen_original"]]]]]

instance : DecidableEq (List FnArg × Ident) := inferInstance
instance : DecidableEq (Bool × Ident × List FnArg × Ident) := inferInstance
instance : DecidableEq (List (Ident × List (Bool × Ident × List FnArg × Ident))) := inferInstance
instance : DecidableEq (List (Ident × List SigParam)) := inferInstance

set_option maxRecDepth 10000 in
set_option synthInstance.maxSize 1024 in
/-- **C69 is false**: a class with a virtual method taking `D &&` has a Rust subclass. The run succeeds, and autocxx can
make the C++ side of the subclass. But the function C++ is to call for the method takes a raw pointer in the bridge without
being `unsafe`, which `cxx` does not accept.

**C68 is false** too: what implements the method of the superclass calls that of the C++ side of the subclass with the raw
pointer it was given, while that takes an `impl RValueParam<D>`, which raw pointers are not. -/
theorem override_pointer_false :
    (exConvertAll (exSubCfg [("C", "S")]) exMovedReports exMovedItems).rust.map
      (fun f => (f.externRust, f.supers, f.methodsCalled "f_super", f.peersMade)) = some
      ([.holder "SHolder", .removeOwnership "S_remove_ownership" "SHolder",
          .subclassFn false "S_f_autocxx_wrapper_0x0"
            [.typed "me" (.ref false none (.path ["SHolder"] [])), .typed "d" (.ptr true (.path ["D"] []))]
            (some (.path ["c_int"] []))],
        [("S", [(false, "f_super", [.typed "d" (.ptr true (.path ["output", "D"] []))], "f_super")])],
        [("SCpp", [
          { receiver := true, mutable := false, name := "self"
            ty := .plain (.path ["core", "pin", "Pin"] [.ref true none (.path ["output", "SCpp"] [])]) },
          { name := "d", ty := .impl (.rvalueParam (.path ["output", "D"] [])) [] }])],
        ["S"]) := by
  decide_run

end Verif
