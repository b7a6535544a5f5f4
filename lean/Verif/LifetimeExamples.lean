import Verif.LifetimeProps
import Verif.RsFnExamples

/-!
# Examples of lifetimes, and where they are missing
-/

set_option autoImplicit false
set_option synthInstance.maxSize 1024
set_option synthInstance.maxHeartbeats 200000

namespace Verif

/-- `const Bar &part(const Foo &f, Foo g)`. -/
def exPart : FuncToConvert :=
  { ident := "part", inputs := [.typed "f" (exConstRef exFooTy), .typed "g" exFooTy], output := some (exConstRef exBarTy) }

/-- `const Foo &same(const Foo &f, Foo g)`. -/
def exSame : FuncToConvert :=
  { ident := "same", inputs := [.typed "f" (exConstRef exFooTy), .typed "g" exFooTy], output := some (exConstRef exFooTy) }

/-- `borrowed_result_partial` and `bridge_lifetime_partial` where lifetimes are written, since a part of an opaque object
is given back. -/
theorem part_witness : (exAnalysis .allFunctionsSafe false none exPart).map (fun a => (a.ignoreReason, exSigs a)) =
    some (none, some ([⟨true, [
        { name := "f", ty := .plain (.ref false (some "'a") exFooOut) },
        { name := "g", ty := .impl (.valueParam exFooOut) ["'a"] }], some (.plain (.ref false (some "'a") exBarOut))⟩],
      [⟨true, [
        { name := "f", ty := .plain (.ref false (some "'a") (.path ["Foo"] [])) },
        { name := "g", ty := .plain (.ptr true (.path ["Foo"] [])) }],
        some (.plain (.ref false (some "'a") (.path ["Bar"] [])))⟩])) := by
  rw [exAnalysis_lit]
  decide_known

/-- The same where none are written. -/
theorem same_witness : (exAnalysis .allFunctionsSafe false none exSame).map (fun a => (a.ignoreReason, exSigs a)) =
    some (none, some ([⟨false, [
        { name := "f", ty := .plain (.ref false none exFooOut) },
        { name := "g", ty := .impl (.valueParam exFooOut) [] }], some (.plain (.ref false none exFooOut))⟩],
      [⟨false, [
        { name := "f", ty := .plain (.ref false none (.path ["Foo"] [])) },
        { name := "g", ty := .plain (.ptr true (.path ["Foo"] [])) }],
        some (.plain (.ref false none (.path ["Foo"] [])))⟩])) := by
  rw [exAnalysis_lit]
  decide_known

/-- The types of these functions, and of that of `mix_types_witness` for `new_result_partial`, are as asked for. -/
theorem lifetimes_described : NoLifetimes exPart .function ∧ NoLifetimes exSame .function ∧ NoLifetimes exMix .function ∧
    Described exPart .function ∧ Described exSame .function ∧ Described exMix .function := by
  have described : ∀ f : FuncToConvert, (f.inputs.map FnArg.given).Nodup →
      (∀ i ∈ f.inputs, i.given = "a" ∨ i.given = "b" ∨ i.given = "c" ∨ i.given = "d" ∨ i.given = "f" ∨ i.given = "g") →
      Described f .function := by
    intro f h1 h2
    refine ⟨h1, fun i hi n hs => ?_, fun i hi hp => ?_, fun h => ?_⟩
    · have hl := congrArg (fun s => s.toList.head?) hs
      rw [show (("space" ++ Nat.repr n).toList.head?) = some 's' by rw [String.toList_append]; rfl] at hl
      rcases h2 i hi with h | h | h | h | h | h <;> rw [h] at hl <;> exact absurd hl (by decide)
    · rcases h2 i hi with h | h | h | h | h | h <;> rw [h] at hp <;> exact absurd hp (by decide)
    · rcases h with ⟨_, _, h⟩ | ⟨_, _, h | h⟩ <;> cases h
  refine ⟨⟨?_, ?_, ?_⟩, ⟨?_, ?_, ?_⟩, ⟨?_, ?_, ?_⟩, described _ (by decide) (by decide), described _ (by decide) (by decide),
    described _ (by decide) (by decide)⟩
  all_goals first
    | (intro n ty h
       simp only [exPart, exSame, exMix, List.mem_cons, FnArg.typed.injEq, List.not_mem_nil, or_false] at h
       rcases h with h | h | h | h <;> (obtain ⟨_, rfl⟩ := h; rfl))
    | (intro n ty h
       simp only [exPart, exSame, exMix, List.mem_cons, FnArg.typed.injEq, List.not_mem_nil, or_false] at h
       rcases h with h | h <;> (obtain ⟨_, rfl⟩ := h; rfl))
    | (intro ty h; cases h; rfl)
    | (rintro ⟨_, _, h⟩; cases h; done)

/-- `const Foo &get(const Foo &f)`. -/
def exGet : FuncToConvert :=
  { ident := "get", inputs := [.typed "f" (exConstRef exFooTy)], output := some (exConstRef exFooTy) }

/-- **C24 is false** where references are wrapped: the lifetime of what is given back is declared, but no parameter has
it, so whoever calls the function may choose it as they please. -/
theorem wrapped_lifetime_false : (exAnalysis .referencesWrappedAllFunctionsSafe false none exGet).map
      (fun a => (a.ignoreReason, (exSigs a).map (·.1))) =
    some (none, some [⟨true, [{ name := "f", ty := .plain (.path ["autocxx", "CppRef"] [exFooOut]) }],
      some (.plain (.path ["autocxx", "CppLtRef"] [.other "'a", exFooOut]))⟩]) := by
  rw [exAnalysis_lit]
  decide_known

/-- `Foo dup(const Foo &f)`. -/
def exDup : FuncToConvert := { ident := "dup", inputs := [.typed "f" (exConstRef exFooTy)], output := some exFooTy }

/-- Nor has a parameter the lifetime of something still to be made of what it refers to. -/
theorem wrapped_new_false : (exAnalysis .referencesWrappedAllFunctionsSafe false none exDup).map
      (fun a => (a.ignoreReason, (exSigs a).map (·.1))) =
    some (none, some [⟨true, [{ name := "f", ty := .plain (.path ["autocxx", "CppRef"] [exFooOut]) }],
      some (.impl (.newOf exFooOut) ["'a"])⟩]) := by
  rw [exAnalysis_lit]
  decide_known

end Verif
