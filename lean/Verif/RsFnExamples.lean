import Verif.RsFnProps
import Verif.FnExamples

/-!
# Examples of Rust functions which are generated, and what is wrong with some
-/

set_option autoImplicit false
set_option synthInstance.maxSize 1024
set_option synthInstance.maxHeartbeats 200000

namespace Verif

/-- A call: whether it waits for a place, its name, and for each argument the parameter it is made of. -/
abbrev ExCall := Bool × String × List (Option String)

instance : DecidableEq ExCall := inferInstance
instance : DecidableEq (Option (List ExCall)) := inferInstance
instance : DecidableEq (Option (List (Option (List ExCall)))) := inferInstance

/-- What running the functions generated for a C++ function does. -/
def exRuns (a : FnAnalysis) : Option (List (Option (List ExCall))) :=
  (genFunction ⟨[], "f"⟩ a [⟨[], "Foo"⟩]).map fun r => r.fns.map fun it =>
    (Rs.runBody it.body { env := it.sig.vars }).map fun (st, _) =>
      st.calls.map fun c => (c.deferred, c.fn, c.args.map RVal.source)

/-- `Foo mix(Foo a, const Foo &b, Foo &&c, Bar d)`. -/
def exMix : FuncToConvert :=
  { ident := "mix", inputs := [.typed "a" exFooTy, .typed "b" (exConstRef exFooTy),
      .typed "c" (.path ["__bindgen_marker_RValueReference"] [.ptr true exFooTy]), .typed "d" exBarTy]
    output := some exFooTy }

/-- All the hypotheses of `generated_calls_once` are met, and what it says. -/
theorem mix_witness : (exAnalysis .allFunctionsSafe false none exMix).map (fun a => (a.ignoreReason, a.kind, exRuns a)) =
    some (none, .function, some [some [(true, "mix_autocxx_wrapper_0x0", [some "a", some "b", some "c", some "d", none])]]) := by
  rw [exAnalysis_lit]
  decide_known

instance : DecidableEq (List Sig × List Sig) := inferInstance
instance : DecidableEq (Option (List Sig × List Sig)) := inferInstance

/-- The signatures outside of the bridge and in it. -/
def exSigs (a : FnAnalysis) : Option (List Sig × List Sig) :=
  (genFunction ⟨[], "f"⟩ a [⟨[], "Foo"⟩]).map fun r => (r.fns.map (·.sig), r.externC.map (·.sig))

/-- The types `generated_types` is about. -/
theorem mix_types_witness : (exAnalysis .allFunctionsSafe false none exMix).map exSigs =
    some (some ([⟨true, [
        { name := "a", ty := .impl (.valueParam (.path ["output", "Foo"] [])) ["'a"] },
        { name := "b", ty := .plain (.ref false (some "'a") (.path ["output", "Foo"] [])) },
        { name := "c", ty := .impl (.rvalueParam (.path ["output", "Foo"] [])) ["'a"] },
        { name := "d", ty := .plain (.path ["output", "Bar"] []) }],
        some (.impl (.newOf (.path ["output", "Foo"] [])) ["'a"])⟩],
      [⟨false, [
        { name := "a", ty := .plain (.ptr true (.path ["Foo"] [])) },
        { name := "b", ty := .plain (.ref false none (.path ["Foo"] [])) },
        { name := "c", ty := .plain (.ptr true (.path ["Foo"] [])) },
        { name := "d", ty := .plain (.path ["Bar"] []) },
        { name := "placement_return_type", ty := .plain (.ptr true (.path ["Foo"] [])) }], none⟩])) := by
  rw [exAnalysis_lit]
  decide_known

/-- `Foo(Foo &&other)`. -/
def exMoveCtor : FuncToConvert :=
  { ident := "Foo_Foo", inputs := [.typed "this" (.ptr true exFooTy),
      .typed "other" (.path ["__bindgen_marker_RValueReference"] [.ptr true exFooTy])]
    specialMember := some .moveConstructor }

/-- The same for a move constructor, whose parameters are the other way round in Rust. -/
theorem move_ctor_witness : (exAnalysis .allFunctionsSafe false (some "Foo") exMoveCtor).map
      (fun a => (a.ignoreReason, exRuns a,
        (genFunction ⟨[], "f"⟩ a []).map fun r => r.fns.map fun it => it.sig.params.map (·.name))) =
    some (none, some [some [(false, "new_autocxx_autocxx_wrapper_0x0", [some "this", some "other"])]],
      some [["other", "this"]]) := by
  rw [exAnalysis_lit]
  decide_known

/-- `void take(Bar space0, Foo a)`. -/
def exCapture : FuncToConvert := { ident := "take", inputs := [.typed "space0" exBarTy, .typed "a" exFooTy] }

/-- `Described` cannot do without `noSpace`: **C26 is false** of a function with a parameter called `space0` and one
passed by value. The function is accepted, but the variable made for the second hides the first, so the code is wrong. -/
theorem space_captured_false : (exAnalysis .allFunctionsSafe false none exCapture).map (fun a => (a.ignoreReason, exRuns a)) =
    some (none, some [none]) := by
  rw [exAnalysis_lit]
  decide_known

/-- `Foo dup(Bar placement_return_type)`. -/
def exPlaced : FuncToConvert :=
  { ident := "dup", inputs := [.typed "placement_return_type" exBarTy], output := some exFooTy }

/-- Nor without `noPlacement`: a parameter with the name used for the place of the result makes two parameters of the
bridge have the same name, and hides the one of the wrapper. -/
theorem placement_name_false : (exAnalysis .allFunctionsSafe false none exPlaced).map
      (fun a => (a.ignoreReason, a.paramDetails.map (·.name), exRuns a)) =
    some (none, ["placement_return_type", "placement_return_type"], some [none]) := by
  rw [exAnalysis_lit]
  decide_known

/-- `Foo Foo::Foo1()`, an ordinary method. -/
def exFoo1 : FuncToConvert :=
  { ident := "Foo1", inputs := [.typed "this" (.ptr true exFooTy)], output := some exFooTy }

/-- Nor without `noResult`: a method called like its class with a number after it is taken for a constructor, so there are
two places to be filled. -/
theorem two_places_false : (exAnalysis .allFunctionsSafe false (some "Foo1") exFoo1).map
      (fun a => (a.ignoreReason, a.paramDetails.map (·.dest), exRuns a)) = some (none, [true, true], some [none]) := by
  rw [exAnalysis_lit]
  decide_known

end Verif
