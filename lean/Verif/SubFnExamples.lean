import Verif.FnExamples
import Verif.SubFnProps

/-!
# Functions made for subclasses: instances
-/

set_option autoImplicit false

namespace Verif

/-- A virtual method `void f()` of a class `Foo`, deleted or not. -/
def exVirtual (d : Option Explicitness) : FuncToConvert :=
  { provenance := .bindgen
    ident := "f"
    inputs := [.typed "this" (.ptr true (.path ["root", "Foo"] []))]
    cppVis := .pub
    virtualness := some .virtual
    selfTy := some ⟨[], "Foo"⟩
    isDeleted := d }

/-- The function with which a subclass `S` calls it. -/
def exSuper (d : Option Explicitness) : FuncToConvert :=
  superFnWrapper ⟨⟨[], "S"⟩, none⟩ ⟨[], "f_super"⟩ (exVirtual d)

/-- It is offered exactly if the method is not deleted. -/
theorem super_offered_witness :
    (exAnalysis .allFunctionsSafe false none (exSuper none)).map (fun a => (a.ignoreReason, a.kind)) =
        some (none, .method .normal ⟨[], "SCpp"⟩) ∧
      (exAnalysis .allFunctionsSafe false none (exSuper (some .deleted))).map
        (fun a => a.ignoreReason.map (·.err)) = some (some .deleted) := by
  constructor <;> (rw [exAnalysis_lit]; decide_known)

/-- The hypotheses of `super_offered` are met. -/
example : ∃ env r, FnRun.Ok env r ∧ r.Asks ⟨⟨[], "f_super"⟩, none⟩ (exSuper none) .regular none ∧
    r.a.ignoreReason = none := by
  obtain ⟨a, ha, e⟩ := Option.map_eq_some_iff.1 super_offered_witness.1
  obtain ⟨env, s, s', n, -, -, h⟩ := exAnalysis_real ha
  exact ⟨env, ⟨s, _, _, .regular, none, s', a, n⟩, h, ⟨rfl, rfl, rfl, rfl⟩, congrArg Prod.fst e⟩

end Verif
