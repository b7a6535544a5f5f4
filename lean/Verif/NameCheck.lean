import Verif.Deps

/-!
# Final checks of names, and C integer types

engine/src/conversion/analysis/name_check.rs and engine/src/conversion/analysis/ctypes.rs.
-/

set_option autoImplicit false

namespace Verif

/-- `FnPhase`'s `ApiVec`. -/
abbrev FnVec := ApiVec TypedefAnalysis PodAndDepAnalysis FnAnalysis

/-- `validate_all_segments_ok_for_cxx`: engine/src/conversion/analysis/name_check.rs:106-113. -/
def validateAllSegs : List String → Checked
  | [] => .ok
  | s :: r =>
    match validateIdentOkForCxx s with
    | .ok => validateAllSegs r
    | c => c

/-- The `?` operator on two consecutive validations. -/
def Checked.andThen (a b : Checked) : Checked :=
  match a with
  | .ok => b
  | c => c

/-- The closure of the first `convert_item_apis` call, up to the decision it takes:
engine/src/conversion/analysis/name_check.rs:35-75. -/
def checkItemName : FnApi → Checked
  | .typedef n .. | .forwardDeclaration n _ | .opaqueTypedef n _ | .const n _ | .enum n _
  | .struct n .. =>
    (validateAllSegs n.name.segs).andThen <|
      match n.cppName with
      | some c => validateAllSegs (QName.ofCppName c).segs
      | none => .ok
  | .subclass n sup => (validateAllSegs n.name.segs).andThen (validateAllSegs sup.segs)
  | .function n _ _ => validateAllSegs n.name.segs
  | .concreteType .. | .ctype .. | .stringConstructor _ | .rustType .. | .rustSubclassFn ..
  | .rustFn .. | .subclassTraitItem .. | .externCppType .. | .ignoredItem .. => .ok

/-- The result of the first closure. (The `panic` case is dealt with by `checkNames`.) -/
def checkNamesFirst (a : FnApi) : Except Err (List FnApi) :=
  match checkItemName a with
  | .bad e => .error (.invalidIdent e)
  | _ => .ok [a]

/-- One step of the loop which fills `names_found`:
engine/src/conversion/analysis/name_check.rs:80-86. -/
def noteBridgeName (m : AMap Ident (List String)) (a : FnApi) : AMap Ident (List String) :=
  match FnApi.cxxbridgeName a with
  | some n => m.insert n ((m.get? n).getD [] ++ [a.name.display])
  | none => m

/-- `names_found`: engine/src/conversion/analysis/name_check.rs:79-86. -/
def namesFound (l : List FnApi) : AMap Ident (List String) := l.foldl noteBridgeName []

/-- The closure of the second `convert_item_apis` call:
engine/src/conversion/analysis/name_check.rs:88-102. -/
def checkNamesSecond (found : AMap Ident (List String)) (a : FnApi) : Except Err (List FnApi) :=
  match FnApi.cxxbridgeName a with
  | some n =>
    let syms := (found.get? n).getD []
    if syms.length > 1 then .error (.duplicateCxxBridgeName syms) else .ok [a]
  | none => .ok [a]

/-- `check_names`: engine/src/conversion/analysis/name_check.rs:27-104. `none` is a panic: some text
that should be an identifier is none. -/
def checkNames (apis : FnVec) : Option FnVec :=
  if apis.apis.any fun a => checkItemName a = .panic then none
  else
    let intermediate := convertItemApis checkNamesFirst apis {}
    let found := namesFound intermediate.apis
    some (convertItemApis (checkNamesSecond found) intermediate {})

/-- The map collected in `append_ctype_information`:
engine/src/conversion/analysis/ctypes.rs:25-30. -/
def ctypesUsed (l : List FnApi) : AMap Ident QName :=
  ((l.flatMap FnApi.deps).filter isCtype).foldl (fun m ty => m.insert ty.name ty) []

/-- `append_ctype_information`: engine/src/conversion/analysis/ctypes.rs:24-36. -/
def appendCtypes (apis : FnVec) : FnVec :=
  (ctypesUsed apis.apis).foldl
    (fun (v : FnVec) p => v.push (.ctype (ApiName.ofQName ⟨[], p.1⟩) p.2)) apis

end Verif
