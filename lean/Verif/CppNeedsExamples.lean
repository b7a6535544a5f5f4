import Verif.CppTotalProps
import Verif.CppGenExamples

/-!
# Examples about which C++ is generated
-/

set_option autoImplicit false

namespace Verif

/-- A function taking a reference to an array and returning something by value. -/
def exArrayArg : FuncToConvert :=
  { ident := "give", inputs := [.typed "a" (exConstRef (.array exBarTy "3usize"))], output := some exFooTy }

/-- **C27 is false** of a function which has a reference to an array as a parameter and needs a wrapper: the function is
accepted, and the C++ generator then fails, which ends the whole run. -/
theorem array_reference_false :
    (exAnalysis .allFunctionsSafe false none exArrayArg).map (fun a => (a.ignoreReason, a.externallyCallable, wrapperText [] a)) =
      some (none, true, some (.err .unsupportedType)) := by
  rw [exAnalysis_lit]
  decide_known

/-- A method of a subclass `Sub` of `Base`. -/
def exMethod : CppFunction :=
  { payload := .functionCall [] "Sub_on", wrapperFunctionName := "on", originalCppName := "on", returnConversion := none
    argumentConversion := [.newUnconverted (.path ["Bar"] [])], kind := .constMethod, passObsField := true
    qualification := some ⟨[], "SubCpp"⟩ }

/-- Some items which need C++. -/
def exNeeds : List FnApi :=
  [.stringConstructor ⟨⟨[], "make_string"⟩, none⟩, .subclass ⟨⟨[], "Sub"⟩, none⟩ ⟨[], "Base"⟩,
   .concreteType ⟨⟨[], "T_AutocxxConcrete"⟩, none⟩ (some (.path ["T"] [.path ["Bar"] []])) "T<Bar>",
   .rustSubclassFn ⟨⟨[], "Sub_on"⟩, none⟩ ⟨⟨[], "Sub"⟩, none⟩
     { params := [], ret := none, cppImpl := exMethod, methodName := "on", superclass := ⟨[], "Base"⟩,
       receiverMutability := .const, dependencies := [], requiresUnsafe := .none, isPureVirtual := true }]

/-- The hypotheses of `needs_made`, `no_files_iff` and `subclass_text` hold of these items, and this is what is made. -/
theorem needs_witness : ((subclassesIn exNeeds).map (·.1)).Nodup ∧
    (addNeeds [] "mk" exNeeds).bind (fun l => .ok (l.map fun e => (e.typeDefinition, e.definition))) = .ok
      [(none, none), (some "typedef T<Bar> T_AutocxxConcrete;", none), (some "struct SubHolder;", none),
       (none, some "void SubCpp::on(Bar arg0) const  { Sub_on(*obs,arg0); }"), (none, none),
       (some ("class SubCpp : public Base\n{\npublic:\n\nvoid on(Bar arg0) const;\n" ++
          "const Base& As_Base() const { return *this; }\nBase& As_Base_mut() { return *this; }\n" ++
          "void SubCpp_remove_ownership() const;\nprivate:rust::Box<SubHolder> obs;\nvoid really_remove_ownership();\n\n};"),
        some ("void SubCpp::SubCpp_remove_ownership() const {\nconst_cast<SubCpp*>(this)->really_remove_ownership();\n}\n" ++
          "void SubCpp::really_remove_ownership() {\nauto new_obs = Sub_remove_ownership(std::move(obs));\n" ++
          "obs = std::move(new_obs);\n}\n"))] := by
  constructor
  · decide
  · decide_known

/-- A method of a subclass which is not itself among the items makes no C++ and no file, and no complaint. -/
theorem stray_method_witness :
    addNeeds [] "mk" (exNeeds.filter fun a => match a with
      | .rustSubclassFn .. => true
      | _ => false) = .ok [] := by
  decide_known

/-- The headers made for all modules guard themselves with the same macro, so that of several included in one C++ file
only the first counts. -/
theorem same_guard {o : CppOptions} {c n i : String} {made : List ExtraCpp} {r : CppFilePair}
    (h : generateFiles o c n i made = some r) :
    ∃ rest, r.header = generatedFileHeader ++ ("\n#ifndef __AUTOCXXGEN_H__\n#define __AUTOCXXGEN_H__\n\n" ++ rest) := by
  rw [generateFiles] at h
  split at h
  · cases h
  · cases h
    refine ⟨collectHeaders o c made (·.headers) ++ "\n" ++ i ++ "\n" ++ concatItems made (·.typeDefinition) ++ "\n" ++
      concatItems made (·.declaration) ++ "#endif // __AUTOCXXGEN_H__\n", ?_⟩
    simp only [String.append_assoc]

end Verif
