import Verif.TightProps
import Verif.RsGenExamples

/-!
# What is made up for classes and subclasses: instances
-/

set_option autoImplicit false

namespace Verif

/-- The functions C++ calls for virtual methods, and what they depend on. -/
def overrideDeps : FnApi → Option (ApiName × ApiName × List QName)
  | .rustSubclassFn n sub d => some (n, sub, d.dependencies)
  | _ => none

/-- A function C++ calls for a virtual method is delivered, and depends on the method of the trait. -/
theorem override_deps_witness :
    (exConvert (exSubCfg [("C", "S")]) exSubReports exSubItems).items.map (List.filterMap overrideDeps) =
      some [(⟨⟨[], "S_f_autocxx_wrapper_0x0"⟩, none⟩, ⟨⟨[], "S"⟩, none⟩, [⟨[], "C_f_trait_item"⟩])] := by
  decide_run

/-- The hypothesis of `override_needs_trait` is met. -/
example : ∃ out n sub d, Nonempty (ConvertStages 100 (fun _ => 0) exSig .allFunctionsSafe (exSubCfg [("C", "S")]) false
    (.ofEvents exSubReports) exSubItems out) ∧ .rustSubclassFn n sub d ∈ out.apis := by
  obtain ⟨l, hl, e⟩ := Option.map_eq_some_iff.1 override_deps_witness
  obtain ⟨out, hr, rfl⟩ := PassRun.items_some hl
  have hm := congrArg ((⟨⟨[], "S_f_autocxx_wrapper_0x0"⟩, none⟩, ⟨⟨[], "S"⟩, none⟩, [⟨[], "C_f_trait_item"⟩]) ∈ ·) e
  obtain ⟨x, hx, ex⟩ := List.mem_filterMap.1 (hm.mpr (by simp))
  cases x <;> try (cases ex; done)
  exact ⟨out, _, _, _, (convert_ok_iff ..).1 hr, hx⟩

/-- What C++ for a function includes. -/
def Outcome.headers : Outcome ExtraCpp → Option (List Header)
  | .ok e => some e.headers
  | _ => none

/-- The C++ for freeing memory. -/
theorem free_headers : (generateCppFunctionInner []
    { payload := .freeUninitialized ⟨[], "Foo"⟩, wrapperFunctionName := "w", originalCppName := "w"
      argumentConversion := [.newUnconverted (.ptr true (.path ["root", "Foo"] []))] }
    false .rustCallsCpp false none).headers = some [.system "memory", .system "stddef.h", .newDeletePrelude] := by
  decide_known

end Verif
