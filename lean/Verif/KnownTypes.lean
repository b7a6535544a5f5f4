import Verif.NameCore
import Verif.AMap

/-!
# The database of known types

engine/src/known_types.rs, complete except for the text of the C++ prelude.
-/

set_option autoImplicit false

namespace Verif

/-- `Behavior`: engine/src/known_types.rs:17-30. -/
inductive Behavior where
  | cxxContainerPtr | cxxContainerVector | cxxString | rustStr | rustString | rustByValue
  | cByValue | cByValueVecSafe | cVariableLengthByValue | cVoid | cChar16
  | rustContainerByValueSafe
deriving DecidableEq, Repr

/-- `TypeDetails`: engine/src/known_types.rs:34-45. -/
structure TypeDetails where
  rsName : String
  cppName : String
  behavior : Behavior
  extraNonCanonicalName : Option String
  hasConstCopyConstructor : Bool
  hasMoveConstructor : Bool
deriving DecidableEq, Repr

/-- `CxxGenericType`: engine/src/known_types.rs:144-155. -/
inductive CxxGenericType where
  | not | cppPtr | cppVector | rust
deriving DecidableEq, Repr

namespace TypeDetails

/-- `TypeDetails::to_type_path`: engine/src/known_types.rs:99-113, as the list of segments. The
leading `::` which `::std::os::raw::c_char` has is not represented. -/
def toTypePath (d : TypeDetails) : List String :=
  match (splitCC d.rsName.toList).map String.ofList with
  | "" :: r => r
  | l => l

/-- `TypeDetails::to_typename`: engine/src/known_types.rs:115-117. -/
def toTypename (d : TypeDetails) : QName := QName.ofCppName d.rsName

/-- `TypeDetails::get_generic_behavior`: engine/src/known_types.rs:119-126. -/
def genericBehavior (d : TypeDetails) : CxxGenericType :=
  match d.behavior with
  | .cxxContainerPtr => .cppPtr
  | .cxxContainerVector => .cppVector
  | .rustContainerByValueSafe => .rust
  | _ => .not

/-- Whether `TypeDetails::get_prelude_entry` gives an entry, and if so the name of the substitute
class it declares in the root namespace and whether it is a template:
engine/src/known_types.rs:67-97 (without the text). -/
def preludeEntry (d : TypeDetails) : Option (String × Bool) :=
  match d.behavior with
  | .rustString | .rustStr | .cxxString => some (d.toTypename.name, false)
  | .cxxContainerPtr | .cxxContainerVector | .rustContainerByValueSafe =>
    some (d.toTypename.name, true)
  | _ => none

end TypeDetails

/-- `TypeDatabase`: engine/src/known_types.rs:131-134. -/
structure TypeDatabase where
  byRsName : AMap QName TypeDetails := []
  canonicalNames : AMap QName QName := []
deriving Repr

namespace TypeDatabase

/-- `TypeDatabase::get`: engine/src/known_types.rs:163-170. -/
def get (db : TypeDatabase) (ty : QName) : Option TypeDetails :=
  db.byRsName.get? ((db.canonicalNames.get? ty).getD ty)

/-- `TypeDatabase::all_names`: engine/src/known_types.rs:190-192. -/
def allNames (db : TypeDatabase) : List QName := db.canonicalNames.keys ++ db.byRsName.keys

/-- `TypeDatabase::insert`: engine/src/known_types.rs:340-353. -/
def insert (db : TypeDatabase) (td : TypeDetails) : TypeDatabase :=
  let rs := td.toTypename
  let c1 := match td.extraNonCanonicalName with
    | some e => db.canonicalNames.insert (QName.ofCppName e) rs
    | none => db.canonicalNames
  { canonicalNames := c1.insert (QName.ofCppName td.cppName) rs
    byRsName := db.byRsName.insert rs td }

end TypeDatabase

/-- The two entries of `insert_ctype`: engine/src/known_types.rs:482-500. `conc` is the name
without spaces. -/
def ctypeEntries (cname conc : String) : List TypeDetails :=
  [⟨"autocxx::c_" ++ conc, cname, .cVariableLengthByValue, some ("std::os::raw::c_" ++ conc),
    true, true⟩,
   ⟨"autocxx::c_u" ++ conc, "unsigned " ++ cname, .cVariableLengthByValue,
    some ("std::os::raw::c_u" ++ conc), true, true⟩]

/-- The table inserted by `create_type_database`, in order: engine/src/known_types.rs:367-556. -/
def knownTypeTable : List TypeDetails :=
  [⟨"cxx::UniquePtr", "std::unique_ptr", .cxxContainerPtr, none, false, true⟩,
   ⟨"cxx::CxxVector", "std::vector", .cxxContainerVector, none, false, true⟩,
   ⟨"cxx::SharedPtr", "std::shared_ptr", .cxxContainerPtr, none, true, true⟩,
   ⟨"cxx::WeakPtr", "std::weak_ptr", .cxxContainerPtr, none, true, true⟩,
   ⟨"cxx::CxxString", "std::string", .cxxString, none, true, true⟩,
   ⟨"str", "rust::Str", .rustStr, none, true, false⟩,
   ⟨"String", "rust::String", .rustString, none, true, true⟩,
   ⟨"std::boxed::Box", "rust::Box", .rustContainerByValueSafe, none, false, true⟩,
   ⟨"i8", "int8_t", .cByValueVecSafe, some "std::os::raw::c_schar", true, true⟩,
   ⟨"u8", "uint8_t", .cByValueVecSafe, some "std::os::raw::c_uchar", true, true⟩,
   ⟨"u16", "uint16_t", .cByValueVecSafe, none, true, true⟩,
   ⟨"i16", "int16_t", .cByValueVecSafe, none, true, true⟩,
   ⟨"u32", "uint32_t", .cByValueVecSafe, none, true, true⟩,
   ⟨"i32", "int32_t", .cByValueVecSafe, none, true, true⟩,
   ⟨"u64", "uint64_t", .cByValueVecSafe, none, true, true⟩,
   ⟨"i64", "int64_t", .cByValueVecSafe, none, true, true⟩,
   ⟨"bool", "bool", .cByValue, none, true, true⟩,
   ⟨"core::pin::Pin", "Pin", .rustByValue, some "std::pin::Pin", true, false⟩] ++
  ctypeEntries "long" "long" ++ ctypeEntries "int" "int" ++ ctypeEntries "short" "short" ++
  ctypeEntries "long long" "longlong" ++
  [⟨"f32", "float", .cByValueVecSafe, none, true, true⟩,
   ⟨"f64", "double", .cByValueVecSafe, none, true, true⟩,
   ⟨"::std::os::raw::c_char", "char", .cByValue, none, true, true⟩,
   ⟨"usize", "size_t", .cByValueVecSafe, none, true, true⟩,
   ⟨"autocxx::c_void", "void", .cVoid, some "std::os::raw::c_void", false, false⟩,
   ⟨"autocxx::c_char16_t", "char16_t", .cChar16, some "c_char16_t", false, false⟩]

/-- `create_type_database` / `known_types()`: engine/src/known_types.rs:137-140,367-556. -/
def knownTypes : TypeDatabase := knownTypeTable.foldl TypeDatabase.insert {}

/-- Lookup in `known_types()`. -/
def knownGet (q : QName) : Option TypeDetails := knownTypes.get q

/-- The classification in `TypeDatabase::get_pod_safe_types`: engine/src/known_types.rs:202-215. -/
def Behavior.podSafe : Behavior → Bool
  | .cxxContainerPtr | .rustStr | .rustString | .rustByValue | .cByValueVecSafe | .cByValue
  | .cVariableLengthByValue | .cChar16 | .rustContainerByValueSafe => true
  | .cxxString | .cxxContainerVector | .cVoid => false

/-- `TypeDatabase::get_pod_safe_types`: engine/src/known_types.rs:196-220: one pair per known name.
`none` is the panic of `self.get(tn).unwrap()`. -/
def podSafeTypes : Option (AMap QName Bool) :=
  knownTypes.allNames.foldlM (init := []) fun m tn =>
    (knownGet tn).map fun d => m.insert tn d.behavior.podSafe

/-- `TypeDatabase::get_moveit_safe_types`: engine/src/known_types.rs:355-364. `none` is the panic of
`self.get(tn).unwrap()`. -/
def moveitSafeTypes : Option (List QName) :=
  knownTypes.allNames.foldlM (init := []) fun acc tn =>
    (knownGet tn).map fun d =>
      if d.behavior = .cxxString ∨ d.behavior = .cxxContainerVector then acc else acc ++ [tn]

/-- `should_dereference_in_cpp`: engine/src/known_types.rs:235-239. -/
def shouldDereferenceInCpp (q : QName) : Bool :=
  match knownGet q with
  | some d => d.behavior = .rustStr
  | none => false

/-- `lacks_copy_constructor`: engine/src/known_types.rs:242-253. -/
def lacksCopyConstructor (q : QName) : Bool :=
  match knownGet q with
  | some d => d.behavior = .cxxContainerPtr || d.behavior = .cxxContainerVector ||
      d.behavior = .rustContainerByValueSafe
  | none => false

/-- `consider_substitution` / `known_type_type_path`: engine/src/known_types.rs:260-262,282-284. -/
def considerSubstitution (q : QName) : Option (List String) := (knownGet q).map (·.toTypePath)

/-- `special_cpp_name`: engine/src/known_types.rs:264-266. -/
def specialCppName (q : QName) : Option String := (knownGet q).map (·.cppName)

/-- `is_known_type` (engine/src/known_types.rs:268-270); also `conflicts_with_built_in_type`
(330-332), and the negation of `is_cxx_acceptable_receiver` (308-311). -/
def isKnownType (q : QName) : Bool := (knownGet q).isSome

/-- `is_known_subtitute_type`: engine/src/known_types.rs:273-280. -/
def isKnownSubstituteType (q : QName) : Bool :=
  q.ns.isEmpty && knownTypes.allNames.any fun n => n.name = q.name

/-- `is_ctype`: engine/src/known_types.rs:288-297. -/
def isCtype (q : QName) : Bool :=
  match knownGet q with
  | some d => d.behavior = .cVariableLengthByValue || d.behavior = .cVoid || d.behavior = .cChar16
  | none => false

/-- `cxx_generic_behavior`: engine/src/known_types.rs:302-306. -/
def cxxGenericBehavior (q : QName) : CxxGenericType :=
  match knownGet q with
  | some d => d.genericBehavior
  | none => .not

/-- `is_cxx_acceptable_receiver`: engine/src/known_types.rs:308-311. -/
def isCxxAcceptableReceiver (q : QName) : Bool := (knownGet q).isNone

/-- `permissible_within_vector`: engine/src/known_types.rs:313-317. -/
def permissibleWithinVector (q : QName) : Bool :=
  match knownGet q with
  | some d => d.behavior = .cxxString || d.behavior = .cByValueVecSafe
  | none => true

/-- `permissible_within_unique_ptr`: engine/src/known_types.rs:319-328. -/
def permissibleWithinUniquePtr (q : QName) : Bool :=
  match knownGet q with
  | some d => d.behavior = .cxxString || d.behavior = .cxxContainerVector
  | none => true

/-- `conflicts_with_built_in_type`: engine/src/known_types.rs:330-332. -/
def conflictsWithBuiltInType (q : QName) : Bool := (knownGet q).isSome

/-- `convertible_from_strs`: engine/src/known_types.rs:334-338. -/
def convertibleFromStrs (q : QName) : Bool :=
  match knownGet q with
  | some d => d.behavior = .cxxString
  | none => false

/-- `get_constructor_details`: engine/src/known_types.rs:222-230, as (move, const copy). -/
def constructorDetails (q : QName) : Option (Bool × Bool) :=
  (knownGet q).map fun d => (d.hasMoveConstructor, d.hasConstCopyConstructor)

/- Keep the elaborator from evaluating the database when it meets `knownGet q` for an unknown `q`. -/
attribute [irreducible] knownGet knownTypes

end Verif
