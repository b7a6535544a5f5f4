import Verif.KnownTypes

/-!
# The database of known types, written out

`knownTypesLit` is the database which `create_type_database` ends with, in normal form. The kernel
checks once that it is what the insertions of `knownTypeTable` build; later finite checks over the
whole table use this form because it is much faster to evaluate.
-/

set_option autoImplicit false

namespace Verif

/-- The value of `known_types()` (engine/src/known_types.rs:367-556) in normal form; see
`knownTypes_eq_lit`. -/
def knownTypesLit : TypeDatabase where
  canonicalNames :=
  [(⟨["std"], "unique_ptr"⟩, ⟨["cxx"], "UniquePtr"⟩),
   (⟨["std"], "vector"⟩, ⟨["cxx"], "CxxVector"⟩),
   (⟨["std"], "shared_ptr"⟩, ⟨["cxx"], "SharedPtr"⟩),
   (⟨["std"], "weak_ptr"⟩, ⟨["cxx"], "WeakPtr"⟩),
   (⟨["std"], "string"⟩, ⟨["cxx"], "CxxString"⟩),
   (⟨["rust"], "Str"⟩, ⟨[], "str"⟩),
   (⟨["rust"], "String"⟩, ⟨[], "String"⟩),
   (⟨["rust"], "Box"⟩, ⟨["std", "boxed"], "Box"⟩),
   (⟨["std", "os", "raw"], "c_schar"⟩, ⟨[], "i8"⟩),
   (⟨[], "int8_t"⟩, ⟨[], "i8"⟩),
   (⟨["std", "os", "raw"], "c_uchar"⟩, ⟨[], "u8"⟩),
   (⟨[], "uint8_t"⟩, ⟨[], "u8"⟩),
   (⟨[], "uint16_t"⟩, ⟨[], "u16"⟩),
   (⟨[], "int16_t"⟩, ⟨[], "i16"⟩),
   (⟨[], "uint32_t"⟩, ⟨[], "u32"⟩),
   (⟨[], "int32_t"⟩, ⟨[], "i32"⟩),
   (⟨[], "uint64_t"⟩, ⟨[], "u64"⟩),
   (⟨[], "int64_t"⟩, ⟨[], "i64"⟩),
   (⟨[], "bool"⟩, ⟨[], "bool"⟩),
   (⟨["std", "pin"], "Pin"⟩, ⟨["core", "pin"], "Pin"⟩),
   (⟨[], "Pin"⟩, ⟨["core", "pin"], "Pin"⟩),
   (⟨["std", "os", "raw"], "c_long"⟩, ⟨["autocxx"], "c_long"⟩),
   (⟨[], "long"⟩, ⟨["autocxx"], "c_long"⟩),
   (⟨["std", "os", "raw"], "c_ulong"⟩, ⟨["autocxx"], "c_ulong"⟩),
   (⟨[], "unsigned long"⟩, ⟨["autocxx"], "c_ulong"⟩),
   (⟨["std", "os", "raw"], "c_int"⟩, ⟨["autocxx"], "c_int"⟩),
   (⟨[], "int"⟩, ⟨["autocxx"], "c_int"⟩),
   (⟨["std", "os", "raw"], "c_uint"⟩, ⟨["autocxx"], "c_uint"⟩),
   (⟨[], "unsigned int"⟩, ⟨["autocxx"], "c_uint"⟩),
   (⟨["std", "os", "raw"], "c_short"⟩, ⟨["autocxx"], "c_short"⟩),
   (⟨[], "short"⟩, ⟨["autocxx"], "c_short"⟩),
   (⟨["std", "os", "raw"], "c_ushort"⟩, ⟨["autocxx"], "c_ushort"⟩),
   (⟨[], "unsigned short"⟩, ⟨["autocxx"], "c_ushort"⟩),
   (⟨["std", "os", "raw"], "c_longlong"⟩, ⟨["autocxx"], "c_longlong"⟩),
   (⟨[], "long long"⟩, ⟨["autocxx"], "c_longlong"⟩),
   (⟨["std", "os", "raw"], "c_ulonglong"⟩, ⟨["autocxx"], "c_ulonglong"⟩),
   (⟨[], "unsigned long long"⟩, ⟨["autocxx"], "c_ulonglong"⟩),
   (⟨[], "float"⟩, ⟨[], "f32"⟩),
   (⟨[], "double"⟩, ⟨[], "f64"⟩),
   (⟨[], "char"⟩, ⟨["std", "os", "raw"], "c_char"⟩),
   (⟨[], "size_t"⟩, ⟨[], "usize"⟩),
   (⟨["std", "os", "raw"], "c_void"⟩, ⟨["autocxx"], "c_void"⟩),
   (⟨[], "void"⟩, ⟨["autocxx"], "c_void"⟩),
   (⟨[], "c_char16_t"⟩, ⟨["autocxx"], "c_char16_t"⟩),
   (⟨[], "char16_t"⟩, ⟨["autocxx"], "c_char16_t"⟩)]
  byRsName :=
  [(⟨["cxx"], "UniquePtr"⟩, ⟨"cxx::UniquePtr", "std::unique_ptr", .cxxContainerPtr, none, false, true⟩),
   (⟨["cxx"], "CxxVector"⟩, ⟨"cxx::CxxVector", "std::vector", .cxxContainerVector, none, false, true⟩),
   (⟨["cxx"], "SharedPtr"⟩, ⟨"cxx::SharedPtr", "std::shared_ptr", .cxxContainerPtr, none, true, true⟩),
   (⟨["cxx"], "WeakPtr"⟩, ⟨"cxx::WeakPtr", "std::weak_ptr", .cxxContainerPtr, none, true, true⟩),
   (⟨["cxx"], "CxxString"⟩, ⟨"cxx::CxxString", "std::string", .cxxString, none, true, true⟩),
   (⟨[], "str"⟩, ⟨"str", "rust::Str", .rustStr, none, true, false⟩),
   (⟨[], "String"⟩, ⟨"String", "rust::String", .rustString, none, true, true⟩),
   (⟨["std", "boxed"], "Box"⟩, ⟨"std::boxed::Box", "rust::Box", .rustContainerByValueSafe, none, false, true⟩),
   (⟨[], "i8"⟩, ⟨"i8", "int8_t", .cByValueVecSafe, some "std::os::raw::c_schar", true, true⟩),
   (⟨[], "u8"⟩, ⟨"u8", "uint8_t", .cByValueVecSafe, some "std::os::raw::c_uchar", true, true⟩),
   (⟨[], "u16"⟩, ⟨"u16", "uint16_t", .cByValueVecSafe, none, true, true⟩),
   (⟨[], "i16"⟩, ⟨"i16", "int16_t", .cByValueVecSafe, none, true, true⟩),
   (⟨[], "u32"⟩, ⟨"u32", "uint32_t", .cByValueVecSafe, none, true, true⟩),
   (⟨[], "i32"⟩, ⟨"i32", "int32_t", .cByValueVecSafe, none, true, true⟩),
   (⟨[], "u64"⟩, ⟨"u64", "uint64_t", .cByValueVecSafe, none, true, true⟩),
   (⟨[], "i64"⟩, ⟨"i64", "int64_t", .cByValueVecSafe, none, true, true⟩),
   (⟨[], "bool"⟩, ⟨"bool", "bool", .cByValue, none, true, true⟩),
   (⟨["core", "pin"], "Pin"⟩, ⟨"core::pin::Pin", "Pin", .rustByValue, some "std::pin::Pin", true, false⟩),
   (⟨["autocxx"], "c_long"⟩, ⟨"autocxx::c_long", "long", .cVariableLengthByValue, some "std::os::raw::c_long", true, true⟩),
   (⟨["autocxx"], "c_ulong"⟩, ⟨"autocxx::c_ulong", "unsigned long", .cVariableLengthByValue, some "std::os::raw::c_ulong", true, true⟩),
   (⟨["autocxx"], "c_int"⟩, ⟨"autocxx::c_int", "int", .cVariableLengthByValue, some "std::os::raw::c_int", true, true⟩),
   (⟨["autocxx"], "c_uint"⟩, ⟨"autocxx::c_uint", "unsigned int", .cVariableLengthByValue, some "std::os::raw::c_uint", true, true⟩),
   (⟨["autocxx"], "c_short"⟩, ⟨"autocxx::c_short", "short", .cVariableLengthByValue, some "std::os::raw::c_short", true, true⟩),
   (⟨["autocxx"], "c_ushort"⟩, ⟨"autocxx::c_ushort", "unsigned short", .cVariableLengthByValue, some "std::os::raw::c_ushort", true, true⟩),
   (⟨["autocxx"], "c_longlong"⟩, ⟨"autocxx::c_longlong", "long long", .cVariableLengthByValue, some "std::os::raw::c_longlong", true, true⟩),
   (⟨["autocxx"], "c_ulonglong"⟩, ⟨"autocxx::c_ulonglong", "unsigned long long", .cVariableLengthByValue, some "std::os::raw::c_ulonglong", true, true⟩),
   (⟨[], "f32"⟩, ⟨"f32", "float", .cByValueVecSafe, none, true, true⟩),
   (⟨[], "f64"⟩, ⟨"f64", "double", .cByValueVecSafe, none, true, true⟩),
   (⟨["std", "os", "raw"], "c_char"⟩, ⟨"::std::os::raw::c_char", "char", .cByValue, none, true, true⟩),
   (⟨[], "usize"⟩, ⟨"usize", "size_t", .cByValueVecSafe, none, true, true⟩),
   (⟨["autocxx"], "c_void"⟩, ⟨"autocxx::c_void", "void", .cVoid, some "std::os::raw::c_void", false, false⟩),
   (⟨["autocxx"], "c_char16_t"⟩, ⟨"autocxx::c_char16_t", "char16_t", .cChar16, some "c_char16_t", false, false⟩)]

set_option maxRecDepth 10000 in
/-- The insertions build exactly the written-out database. -/
theorem knownTypes_eq_lit : knownTypes = knownTypesLit := by
  have h : knownTypes.canonicalNames = knownTypesLit.canonicalNames ∧
    knownTypes.byRsName = knownTypesLit.byRsName := by decide +kernel
  cases hk : knownTypes
  cases hl : knownTypesLit
  rw [hk, hl] at h
  obtain ⟨h1, h2⟩ := h
  simp only at h1 h2
  rw [h1, h2]

set_option maxRecDepth 10000 in
/-- The rows of the table are the values of the map. -/
theorem knownTypeTable_eq_lit : knownTypeTable = knownTypesLit.byRsName.map (·.2) := by
  decide +kernel

theorem knownGet_eq_lit (q : QName) : knownGet q = knownTypesLit.get q := by
  rw [knownGet, knownTypes_eq_lit]

end Verif
