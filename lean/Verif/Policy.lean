import Verif.Passes

/-!
# How arguments and results are converted

engine/src/conversion/analysis/fun/function_wrapper.rs, engine/src/conversion/codegen_cpp/function_wrapper_cpp.rs and
the first part of engine/src/conversion/codegen_rs/fun_codegen.rs.
-/

set_option autoImplicit false

namespace Verif

/-- `CppConversionType::inverse`: engine/src/conversion/analysis/fun/function_wrapper.rs:37-48. `none` is the panic. -/
def CppConversionType.inverse : CppConversionType → Option CppConversionType
  | .none => some .none
  | .fromUniquePtrToValue | .fromPtrToValue => some .fromValueToUniquePtr
  | .fromValueToUniquePtr => some .fromUniquePtrToValue
  | .fromPointerToReference => some .fromReferenceToPointer
  | .fromReferenceToPointer => some .fromPointerToReference
  | _ => Option.none

/-- `RustConversionType::requires_mutability`: engine/src/conversion/analysis/fun/function_wrapper.rs:67-72. -/
def RustConversionType.requiresMutability : RustConversionType → Bool
  | .fromPinMoveRefToPtr => true
  | _ => false

/-- `is_pin` and `extract_pinned_mutable_reference_type`: engine/src/conversion/type_helpers.rs:19-59. -/
def pinnedMutRef : Ty → Option Ty
  | .path [a, "pin", "Pin"] [.ref true _ e] => if a = "std" ∨ a = "core" then some e else none
  | _ => none

namespace TypeConversionPolicy

/-- `TypeConversionPolicy::new_unconverted`: engine/src/conversion/analysis/fun/function_wrapper.rs:99-101. -/
def newUnconverted (ty : Ty) : TypeConversionPolicy := ⟨ty, .none, .none⟩

/-- `TypeConversionPolicy::return_reference_into_wrapper`: function_wrapper.rs:119-142. `none` are the panics. -/
def returnReferenceIntoWrapper (ty : Ty) : Option TypeConversionPolicy :=
  match ty with
  | .ref m _ e => some ⟨.ptr m e, .fromReferenceToPointer, .fromPointerToReferenceWrapper⟩
  | .path .. => (pinnedMutRef ty).map fun e => ⟨.ptr true e, .fromReferenceToPointer, .fromPointerToReferenceWrapper⟩
  | _ => none

/-- `TypeConversionPolicy::new_to_unique_ptr`: function_wrapper.rs:144-150. -/
def newToUniquePtr (ty : Ty) : TypeConversionPolicy := ⟨ty, .fromValueToUniquePtr, .none⟩

/-- `TypeConversionPolicy::new_for_placement_return`: function_wrapper.rs:152-161. -/
def newForPlacementReturn (ty : Ty) : TypeConversionPolicy := ⟨ty, .fromReturnValueToPlacementPtr, .none⟩

/-- `TypeConversionPolicy::cpp_work_needed`: function_wrapper.rs:163-165. -/
def cppWorkNeeded (p : TypeConversionPolicy) : Bool := p.cppConversion ≠ .none

/-- `make_unique_ptr_type`: function_wrapper.rs:187-192. -/
def makeUniquePtrType (p : TypeConversionPolicy) : Ty := .path ["cxx", "UniquePtr"] [p.unwrappedType]

/-- `unconverted_rust_type`: function_wrapper.rs:167-172. -/
def unconvertedRustType (p : TypeConversionPolicy) : Ty :=
  match p.cppConversion with
  | .fromValueToUniquePtr => p.makeUniquePtrType
  | _ => p.unwrappedType

/-- `converted_rust_type`: function_wrapper.rs:174-185. -/
def convertedRustType (p : TypeConversionPolicy) : Ty :=
  match p.cppConversion with
  | .fromUniquePtrToValue => p.makeUniquePtrType
  | .fromPtrToValue => .ptr true p.unwrappedType
  | _ => p.unwrappedType

/-- `rust_work_needed`: function_wrapper.rs:194-196. -/
def rustWorkNeeded (p : TypeConversionPolicy) : Bool := p.rustConversion ≠ .none

/-- `TypeConversionPolicy::inverse`: function_wrapper.rs:201-207. `none` is a panic. -/
def inverse (p : TypeConversionPolicy) : Option TypeConversionPolicy :=
  p.cppConversion.inverse.map fun c => { p with cppConversion := c }

/-- `bridge_unsafe_needed`: function_wrapper.rs:209-218. -/
def bridgeUnsafeNeeded (p : TypeConversionPolicy) : Bool :=
  match p.rustConversion with
  | .fromValueParamToPtr | .fromRValueParamToPtr | .fromPlacementParamToNewReturn
  | .fromPointerToReferenceWrapper | .fromReferenceWrapperToPointer => true
  | _ => false

/-- `is_placement_parameter`: function_wrapper.rs:220-225. -/
def isPlacementParameter (p : TypeConversionPolicy) : Bool := p.cppConversion = .ignoredPlacementPtrParameter

/-- `populate_return_value`: function_wrapper.rs:227-232. -/
def populateReturnValue (p : TypeConversionPolicy) : Bool := p.cppConversion ≠ .fromReturnValueToPlacementPtr

/-- `unique_ptr_wrapped_type`: engine/src/conversion/codegen_cpp/function_wrapper_cpp.rs:65-73. -/
def uniquePtrWrapped (m : CppNameMap) (p : TypeConversionPolicy) : Outcome String :=
  (m.typeToCpp p.unwrappedType).bind fun s => .ok ("std::unique_ptr<" ++ s ++ ">")

/-- `unconverted_type`: function_wrapper_cpp.rs:19-30. -/
def unconvertedType (m : CppNameMap) (p : TypeConversionPolicy) : Outcome String :=
  match p.cppConversion with
  | .fromUniquePtrToValue => p.uniquePtrWrapped m
  | .fromPtrToValue => (m.typeToCpp p.unwrappedType).bind fun s => .ok (s ++ "*")
  | _ => m.typeToCpp p.unwrappedType

/-- `converted_type`: function_wrapper_cpp.rs:32-56. -/
def convertedType (m : CppNameMap) (p : TypeConversionPolicy) : Outcome String :=
  match p.cppConversion with
  | .fromValueToUniquePtr => p.uniquePtrWrapped m
  | .fromReferenceToPointer =>
    match p.unwrappedType with
    | .ptr mu e => (m.typeToCpp e).bind fun s => .ok (constPrefix mu ++ s ++ "*")
    | _ => .panic
  | _ => m.typeToCpp p.unwrappedType

/-- `cpp_conversion`: function_wrapper_cpp.rs:75-108. `none` is for a parameter which is not passed on. -/
def cppConvert (m : CppNameMap) (p : TypeConversionPolicy) (var : String) (isReturn : Bool) :
    Outcome (Option String) :=
  match p.cppConversion with
  | .none | .fromReturnValueToPlacementPtr => .ok (some var)
  | .fromPointerToReference => .ok (some ("(*" ++ var ++ ")"))
  | .move => .ok (some ("std::move(" ++ var ++ ")"))
  | .fromUniquePtrToValue | .fromPtrToMove => .ok (some ("std::move(*" ++ var ++ ")"))
  | .fromValueToUniquePtr =>
    (p.unconvertedType m).bind fun s => .ok (some ("std::make_unique<" ++ s ++ ">(" ++ var ++ ")"))
  | .fromPtrToValue => .ok (some (if isReturn then "*" ++ var else "std::move(*" ++ var ++ ")"))
  | .ignoredPlacementPtrParameter => .ok none
  | .fromReferenceToPointer => .ok (some ("&" ++ var))

end TypeConversionPolicy

/-! ## Unsafety -/

/-- `UnsafetyNeeded::bridge_token`: engine/src/conversion/codegen_rs/fun_codegen.rs:46-51. -/
def UnsafetyNeeded.bridgeToken : UnsafetyNeeded → Bool
  | .none => false
  | _ => true

/-- `UnsafetyNeeded::wrapper_token`: fun_codegen.rs:53-58. -/
def UnsafetyNeeded.wrapperToken : UnsafetyNeeded → Bool
  | .always => true
  | _ => false

/-- `UnsafetyNeeded::from_param_details`, one parameter: fun_codegen.rs:61-83. -/
def unsafetyStep (ignorePlacements : Bool) (acc : UnsafetyNeeded) (pd : ArgumentAnalysis) : UnsafetyNeeded :=
  if acc = .always then .always
  else if (pd.selfType.isSome || pd.isPlacementReturnDestination) && ignorePlacements then
    if pd.requiresUnsafe = .always ∨ pd.requiresUnsafe = .justBridge then .justBridge else acc
  else if pd.requiresUnsafe = .always then .always
  else if acc = .justBridge ∨ pd.requiresUnsafe = .justBridge then .justBridge
  else .none

/-- `UnsafetyNeeded::from_param_details`: fun_codegen.rs:60-85. -/
def UnsafetyNeeded.fromParams (ps : List ArgumentAnalysis) (ignorePlacements : Bool) : UnsafetyNeeded :=
  ps.foldl (unsafetyStep ignorePlacements) .none

/-- `FnAnalyzer::should_be_unsafe`: engine/src/conversion/analysis/fun/mod.rs:466-503. -/
def shouldBeUnsafe (policy : UnsafePolicy) (ps : List ArgumentAnalysis) (kind : FnKind) : UnsafetyNeeded :=
  let nonPlacement := UnsafetyNeeded.fromParams ps true
  let all := UnsafetyNeeded.fromParams ps false
  match kind with
  | .traitMethod .copyConstructor _ _ | .traitMethod .moveConstructor _ _ | .traitMethod .alloc _ _
  | .traitMethod .dealloc _ _ => .always
  | .traitMethod .. =>
    match all with
    | .always => .justBridge
    | u => u
  | _ =>
    if policy = .allFunctionsUnsafe then .always
    else
      match nonPlacement with
      | .always => .always
      | .justBridge =>
        match all with
        | .always => .justBridge
        | _ => nonPlacement
      | .none =>
        match all with
        | .always => .justBridge
        | u => u

end Verif
