import Verif.CppMadeProps
import Verif.CppGenExamples

/-!
# C25: the text of functions whose C++ is made up
-/

set_option autoImplicit false

namespace Verif

/-- `struct B {}; namespace n { struct D : B {}; }`, and the functions made up for `D`. -/
def exMadeUp : List PodApi :=
  [.struct ⟨⟨[], "B"⟩, none⟩ {} {}, .struct ⟨⟨["n"], "D"⟩, none⟩ {} {}, createCast ⟨["n"], "D"⟩ ⟨[], "B"⟩] ++
    createAllocAndFree ⟨["n"], "D"⟩

/-- The functions are what the theorems are about. -/
example : (∀ n f u, createCast ⟨["n"], "D"⟩ ⟨[], "B"⟩ = .function n f u → Casts f ⟨["n"], "D"⟩ ⟨[], "B"⟩) ∧
    ∀ n f u, .function n f u ∈ createAllocAndFree ⟨["n"], "D"⟩ → Allocates f ⟨["n"], "D"⟩ ∨ Frees f ⟨["n"], "D"⟩ := by
  constructor
  · intro n f u h
    unfold createCast at h
    cases h
    exact ⟨rfl, rfl, rfl, rfl⟩
  · intro n f u h
    unfold createAllocAndFree at h
    rcases List.mem_cons.1 h with e | h
    · cases e; exact .inl ⟨rfl, rfl, rfl, rfl, rfl⟩
    · cases List.mem_singleton.1 h; exact .inr ⟨rfl, rfl, rfl, rfl, rfl⟩

/-- They are all offered, and this is their C++. -/
theorem made_texts : (exSteps .allFunctionsSafe exMadeUp).map wrappersOf =
    some
      [.ok (some "inline const B& cast_D_to_B_autocxx_wrapper_0x0(const n::D& arg0)  { return arg0; }"),
        .ok (some "inline n::D* D_autocxx_alloc_autocxx_wrapper_0x0()  { return new_appropriately<n::D>();; }"),
        .ok (some "inline void D_autocxx_free_autocxx_wrapper_0x0(n::D* arg0)  { delete_appropriately<n::D>(arg0);; }")] := by
  rw [exSteps_lit]
  decide_known

/-- If references are wrapped the cast takes and gives pointers. -/
theorem made_texts_wrapped : ((exSteps .referencesWrappedAllFunctionsSafe exMadeUp).map wrappersOf).bind (·.head?) =
    some (.ok (some "inline const B* cast_D_to_B_autocxx_wrapper_0x0(const n::D* arg0)  { return &(*arg0); }")) := by
  rw [exSteps_lit]
  decide_known

end Verif
