import Verif.Deps

/-!
# C++ spellings of types

engine/src/conversion/codegen_cpp/type_to_cpp.rs.
-/

set_option autoImplicit false

namespace Verif

/-- `CppNameMap`: engine/src/conversion/codegen_cpp/type_to_cpp.rs:25. -/
abbrev CppNameMap := AMap QName String

/-- `CppNameMap::new_from_apis`: engine/src/conversion/codegen_cpp/type_to_cpp.rs:30-40. -/
def CppNameMap.ofApis {T S F : Type} (apis : List (Api T S F)) : CppNameMap :=
  apis.foldl (init := []) fun m a =>
    match a.nameInfo.cppName with
    | some c => AMap.insert m a.name c
    | none => m

/-- `CppNameMap::map`: engine/src/conversion/codegen_cpp/type_to_cpp.rs:45-55. -/
def CppNameMap.map (m : CppNameMap) (q : QName) : String :=
  match AMap.get? m q with
  | some c => joinCC (q.ns ++ [c])
  | none => q.toCppName

/-- `CppOriginalName::get_final_segment_for_special_members` (engine/src/parse_callbacks.rs:65-67):
`rsplit_once("::")`. -/
def finalSegment (s : String) : Option String :=
  (splitLast "::".toList s.toList).map fun p => String.ofList p.2

/-- `CppNameMap::get_final_item`: engine/src/conversion/codegen_cpp/type_to_cpp.rs:61-70. -/
def CppNameMap.getFinalItem (m : CppNameMap) (q : QName) : String :=
  match AMap.get? m q with
  | some c => (finalSegment c).getD q.name
  | none => q.name

/-- Outcome of something which may fail or panic. -/
inductive Outcome (α : Type) where
  | ok (a : α)
  | err (e : Err)
  | panic
deriving DecidableEq, Repr

/-- The `?` operator. -/
def Outcome.bind {α β : Type} (o : Outcome α) (f : α → Outcome β) : Outcome β :=
  match o with
  | .ok a => f a
  | .err e => .err e
  | .panic => .panic

/-- `Iterator::join`. -/
def joinWith (sep : String) : List String → String
  | [] => ""
  | [a] => a
  | a :: b :: r => a ++ sep ++ joinWith sep (b :: r)

/-- `get_mut_string`: engine/src/conversion/codegen_cpp/type_to_cpp.rs:150-155. -/
def constPrefix (mutable : Bool) : String := if mutable then "" else "const "

mutual
/-- `CppNameMap::type_to_cpp`: engine/src/conversion/codegen_cpp/type_to_cpp.rs:73-139. -/
def CppNameMap.typeToCpp (m : CppNameMap) : Ty → Outcome String
  | .path segs args =>
    match QName.ofTypePath segs with
    | none => .panic
    | some q =>
      let root := m.map q
      if root = "Pin" then
        match args with
        | a :: _ => CppNameMap.typeToCpp m a
        | [] => .panic
      else
        match args with
        | [] => .ok root
        | a :: r =>
          (CppNameMap.typeToCpp m a).bind fun s =>
            (CppNameMap.typesToCpp m r).bind fun ss => .ok (root ++ "<" ++ joinWith ", " (s :: ss) ++ ">")
  | .ref mu _ e =>
    if e = .path ["str"] [] then .ok "rust::Str"
    else (CppNameMap.typeToCpp m e).bind fun s => .ok (constPrefix mu ++ s ++ "&")
  | .ptr mu e => (CppNameMap.typeToCpp m e).bind fun s => .ok (constPrefix mu ++ s ++ "*")
  | .array _ _ => .err .unsupportedType
  | .other _ => .err .unsupportedType
/-- The generic arguments of `type_to_cpp`: engine/src/conversion/codegen_cpp/type_to_cpp.rs:93-102. -/
def CppNameMap.typesToCpp (m : CppNameMap) : List Ty → Outcome (List String)
  | [] => .ok []
  | a :: r =>
    (CppNameMap.typeToCpp m a).bind fun s => (CppNameMap.typesToCpp m r).bind fun ss => .ok (s :: ss)
end

end Verif
