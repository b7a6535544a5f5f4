import Verif.TraitRunProps
import Verif.RsGenExamples

/-!
# C66, C69: a whole run with a virtual method and a subclass in Rust
-/

set_option autoImplicit false

namespace Verif

/-- Of a function C++ calls, the first thing it asks for; of the method of a trait, its name. -/
def FnApi.asksOrTrait : FnApi → Option (Bool × QName)
  | .rustSubclassFn _ _ d => d.dependencies.head?.map fun q => (true, q)
  | .subclassTraitItem n _ => some (false, n.name)
  | _ => none

set_option maxRecDepth 10000 in
set_option synthInstance.maxSize 1024 in
theorem exSub_asks :
    (exConvert (exSubCfg [("C", "S")]) exSubReports exSubItems).items.map (List.filterMap FnApi.asksOrTrait) =
      some [(true, ⟨[], "C_f_trait_item"⟩), (false, ⟨[], "C_f_trait_item"⟩)] := by
  decide_run

/-- Non-trivial instance of `run_agrees_partial`. -/
theorem run_agrees_witness : ∃ out, Nonempty (ConvertStages 100 (fun _ => 0) exSig .allFunctionsSafe (exSubCfg [("C", "S")])
      false (.ofEvents exSubReports) exSubItems out) ∧
    ∃ n sub d tn m, .rustSubclassFn n sub d ∈ out.apis ∧ .subclassTraitItem tn m ∈ out.apis ∧
      d.dependencies.head? = some tn.name := by
  obtain ⟨l, hl, e⟩ := Option.map_eq_some_iff.1 exSub_asks
  obtain ⟨out, hr, rfl⟩ := PassRun.items_some hl
  have e1 : (true, ⟨[], "C_f_trait_item"⟩) ∈ out.apis.filterMap FnApi.asksOrTrait := by rw [e]; simp
  have e2 : (false, ⟨[], "C_f_trait_item"⟩) ∈ out.apis.filterMap FnApi.asksOrTrait := by rw [e]; simp
  obtain ⟨x, hx, hx'⟩ := List.mem_filterMap.1 e1
  obtain ⟨y, hy, hy'⟩ := List.mem_filterMap.1 e2
  refine ⟨out, (convert_ok_iff ..).1 hr, ?_⟩
  cases x <;> try (cases hx'; done)
  · obtain ⟨q, hq, eq⟩ := Option.map_eq_some_iff.1 hx'
    cases y <;> try (cases hy'; done)
    · obtain ⟨q, hq, eq⟩ := Option.map_eq_some_iff.1 hy'
      cases eq
    · refine ⟨_, _, _, _, _, hx, hy, ?_⟩
      rw [hq]
      exact congrArg some ((congrArg Prod.snd eq).trans (congrArg Prod.snd (Option.some.inj hy')).symm)

end Verif
