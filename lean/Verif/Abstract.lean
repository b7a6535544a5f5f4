import Verif.Deps
import Verif.DepthFirst

/-!
# Abstract classes

engine/src/conversion/analysis/abstract_types.rs.
-/

set_option autoImplicit false

namespace Verif

/-- `Signature`: engine/src/conversion/analysis/abstract_types.rs:34-39. -/
structure Signature where
  name : String
  args : List Ty
  constness : ReceiverMutability
deriving DecidableEq, Repr

/-- `Signature::new`: engine/src/conversion/analysis/abstract_types.rs:41-63. The first parameter is
skipped, and so is any receiver. -/
def Signature.new (name : ApiName) (params : List FnArg) (constness : ReceiverMutability) : Signature :=
  { name := name.effectiveCppName
    args := (params.drop 1).filterMap fun p => match p with
      | .typed _ ty => some ty
      | .receiver _ => none
    constness }

/-- `ClassAbstractState`: engine/src/conversion/analysis/abstract_types.rs:67-71. The sets are lists of
which only the elements matter. -/
structure ClassAbstractState where
  undefined : List Signature := []
  defined : List Signature := []

/-- `class_states`: engine/src/conversion/analysis/abstract_types.rs:72. -/
abbrev ClassStates := AMap QName ClassAbstractState

/-- `class_states.get(n).cloned().unwrap_or_default()`, also the value of `entry(n).or_default()`. -/
def ClassStates.getD (m : ClassStates) (n : QName) : ClassAbstractState := (m.get? n).getD {}

/-- The body of the first loop: engine/src/conversion/analysis/abstract_types.rs:75-108. -/
def collectVirtual (m : ClassStates) : FnPre2Api → ClassStates
  | .function name _ a =>
    match a.kind with
    | .method (.pureVirtual c) self =>
      let s := m.getD self
      m.insert self { s with undefined := Signature.new name a.params c :: s.undefined }
    | .method (.virtual c) self =>
      let s := m.getD self
      m.insert self { s with defined := Signature.new name a.params c :: s.defined }
    | _ => m
  | _ => m

/-- What remains undefined in a class: engine/src/conversion/analysis/abstract_types.rs:128-141. -/
def resolveClass (m : ClassStates) (n : QName) (bases : List QName) : ClassAbstractState :=
  let own := m.getD n
  let undefined := own.undefined ++ bases.flatMap fun b =>
    match m.get? b with
    | some s => s.undefined
    | none => []
  { own with undefined := undefined.filter fun u => u ∉ own.defined }

/-- The body of the second loop, with the set `abstract_classes`:
engine/src/conversion/analysis/abstract_types.rs:110-151. -/
def resolveStep (st : ClassStates × List QName) : FnPre2Api → ClassStates × List QName
  | .struct n _ a =>
    if a.pod.kind = .pod ∨ a.pod.kind = .nonPod then
      let s := resolveClass st.1 n.name a.pod.bases
      (st.1.insert n.name s, if s.undefined.isEmpty then st.2 else setInsert st.2 n.name)
    else st
  | _ => st

/-- The names of the classes found to be abstract. `none` is the panic of the depth-first iterator about
a circular dependency. engine/src/conversion/analysis/abstract_types.rs:66-151. -/
def abstractClasses (apis : List FnPre2Api) : Option (List QName) :=
  match fieldsAndBasesFirst Api.name FnPre2Api.fieldAndBaseDeps apis with
  | .ok order => some (order.foldl resolveStep (apis.foldl collectVirtual [], [])).2
  | _ => none

/-- Marking a struct: engine/src/conversion/analysis/abstract_types.rs:153-164. -/
def markAbstract (abs : List QName) : FnPre2Api → FnPre2Api
  | .struct n d a =>
    if n.name ∈ abs then .struct n d { a with pod := { a.pod with kind := .abstract } }
    else .struct n d a
  | a => a

/-- Whether this is a constructor of an abstract type, to be removed:
engine/src/conversion/analysis/abstract_types.rs:166-180. -/
def isAbstractConstructor (abs : List QName) : FnPre2Api → Bool
  | .function _ _ a =>
    match a.kind with
    | .method (.constructor _) self => self ∈ abs
    | .traitMethod .copyConstructor self _ => self ∈ abs
    | .traitMethod .moveConstructor self _ => self ∈ abs
    | _ => false
  | _ => false

/-- Rejection of nested abstract types: engine/src/conversion/analysis/abstract_types.rs:191-213. -/
def rejectNestedAbstract : FnPre2Api → Except Err (List FnPre2Api)
  | .struct n d a =>
    if a.pod.kind = .abstract ∧ ((n.cppName.map cppNameIsNested).getD false) = true then
      .error .abstractNestedType
    else .ok [.struct n d a]
  | a => .ok [a]

/-- `mark_types_abstract`: engine/src/conversion/analysis/abstract_types.rs:66-216. -/
def markTypesAbstract (apis : ApiVec TypedefAnalysis PodAndConstructorAnalysis FnAnalysis) :
    Option (ApiVec TypedefAnalysis PodAndConstructorAnalysis FnAnalysis) :=
  (abstractClasses apis.apis).map fun abs =>
    let marked := ApiVec.fromIter (apis.apis.map (markAbstract abs))
    convertItemApis rejectNestedAbstract (marked.retain fun a => !isAbstractConstructor abs a) {}

/-- `discard_ignored_functions`: engine/src/conversion/analysis/abstract_types.rs:218-239. -/
def discardIgnoredFunctions (apis : ApiVec TypedefAnalysis PodAndDepAnalysis FnAnalysis) :
    ApiVec TypedefAnalysis PodAndDepAnalysis FnAnalysis :=
  (convertApis (σ := Unit)
    { func := fun _ n f a => ((), match a.ignoreReason with
        | some e => .error e
        | none => .ok [.function n f a])
      struct := fun _ n d a => ((), .ok [.struct n d a])
      enum := fun _ n i => ((), .ok [.enum n i])
      typedef := fun _ n i o a => ((), .ok [.typedef n i o a]) }
    () apis {}).2

end Verif
