import Verif.FnMoreProps
import Verif.FnExamples

/-!
# Functions which meet the hypotheses of `FnMoreProps`
-/

set_option autoImplicit false
set_option synthInstance.maxSize 1024
set_option synthInstance.maxHeartbeats 200000

namespace Verif

/-- `Foo::Foo(Bar)`. -/
def exMake : FuncToConvert :=
  { ident := "Foo_Foo", inputs := [.typed "this" (.ptr true exFooTy), .typed "b" exBarTy], selfTy := some ⟨[], "Foo"⟩ }

/-- A constructor, even where references are wrapped: the bridge function takes a bare pointer and is marked `unsafe`
there, and the wrapper builds a `Foo`. This meets the hypotheses of `bridge_pointers_unsafe`, `constructor_place` and
`wrapper_does`. -/
theorem make_witness : (exAnalysis .referencesWrappedAllFunctionsSafe false (some "Foo") exMake).map
      (fun a => (a.ignoreReason, a.kind, a.bridge, a.cppWrapper.map (fun w => (w.payload, w.kind)), a.requiresUnsafe)) =
    some (none, .method (.constructor false) ⟨[], "Foo"⟩, ([.ptr true exFooOut, exBarOut], none),
      some (.placementNew [] "Foo", .constructor), .justBridge) := by
  rw [exAnalysis_lit]; decide_known

/-- `Foo`'s method `go(int *)`, made for `Bar`. -/
def exMade : FuncToConvert :=
  { ident := "go", inputs := [.typed "this" (.ptr true exFooTy), .typed "b" (.ptr true exBarTy)],
    selfTy := some ⟨[], "Bar"⟩, synthesizedThisType := some ⟨[], "Bar"⟩ }

/-- A method made for another class. This meets the hypotheses of `made_method_object`. -/
theorem made_witness : (exAnalysis .allFunctionsSafe false none exMade).map
      (fun a => (a.ignoreReason, a.kind, a.bridge, a.paramDetails.map (·.selfType), a.requiresUnsafe)) =
    some (none, .method .normal ⟨[], "Bar"⟩,
      ([.path ["core", "pin", "Pin"] [.ref true none exBarOut], .ptr true exBarOut], none),
      [some (⟨[], "Bar"⟩, .mutable), none], .always) := by
  rw [exAnalysis_lit]; decide_known

end Verif
