import Verif.Deps
import Verif.DepthFirst

/-!
# Which constructors and destructors a class has

engine/src/conversion/analysis/fun/implicit_constructors.rs and `add_constructors_present` of
engine/src/conversion/analysis/fun/mod.rs.
-/

set_option autoImplicit false

namespace Verif

/-- `SpecialMemberFound`: engine/src/conversion/analysis/fun/implicit_constructors.rs:36-48. -/
inductive SpecialMemberFound where
  | notPresent
  | implicit
  | explicit (v : CppVisibility)
deriving DecidableEq, Repr, Inhabited

namespace SpecialMemberFound

/-- `callable_any`: engine/src/conversion/analysis/fun/implicit_constructors.rs:52-54. -/
def callableAny : SpecialMemberFound → Bool
  | .explicit .pub | .implicit => true
  | _ => false

/-- `callable_subclass`: engine/src/conversion/analysis/fun/implicit_constructors.rs:57-64. -/
def callableSubclass : SpecialMemberFound → Bool
  | .explicit .pub | .explicit .prot | .implicit => true
  | _ => false

/-- `exists`: engine/src/conversion/analysis/fun/implicit_constructors.rs:69-71. -/
def present : SpecialMemberFound → Bool
  | .explicit _ | .implicit => true
  | _ => false

/-- `exists_implicit`: engine/src/conversion/analysis/fun/implicit_constructors.rs:73-75. -/
def existsImplicit : SpecialMemberFound → Bool
  | .implicit => true
  | _ => false

/-- `exists_explicit`: engine/src/conversion/analysis/fun/implicit_constructors.rs:77-79. -/
def existsExplicit : SpecialMemberFound → Bool
  | .explicit _ => true
  | _ => false

end SpecialMemberFound

/-- `ItemsFound`: engine/src/conversion/analysis/fun/implicit_constructors.rs:87-104. -/
structure ItemsFound where
  defaultConstructor : SpecialMemberFound
  destructor : SpecialMemberFound
  constCopy : SpecialMemberFound
  nonConstCopy : SpecialMemberFound
  moveConstructor : SpecialMemberFound
  name : Option ApiName
deriving DecidableEq, Repr

namespace ItemsFound

/-- `implicit_default_constructor_needed`:
engine/src/conversion/analysis/fun/implicit_constructors.rs:109-111. -/
def defaultNeeded (i : ItemsFound) : Bool := i.defaultConstructor.existsImplicit

/-- `implicit_copy_constructor_needed`:
engine/src/conversion/analysis/fun/implicit_constructors.rs:115-121. -/
def copyNeeded (i : ItemsFound) : Bool :=
  (i.constCopy.existsImplicit || i.nonConstCopy.existsImplicit) &&
    !(i.constCopy.existsExplicit || i.nonConstCopy.existsExplicit)

/-- `implicit_move_constructor_needed`:
engine/src/conversion/analysis/fun/implicit_constructors.rs:125-127. -/
def moveNeeded (i : ItemsFound) : Bool := i.moveConstructor.existsImplicit

/-- `implicit_destructor_needed`:
engine/src/conversion/analysis/fun/implicit_constructors.rs:131-133. -/
def destructorNeeded (i : ItemsFound) : Bool := i.destructor.existsImplicit

end ItemsFound

/-- `ExplicitKind`: engine/src/conversion/analysis/fun/implicit_constructors.rs:135-146. -/
inductive ExplicitKind where
  | defaultConstructor | constCopy | nonConstCopy | moveConstructor | otherConstructor | destructor
  | constCopyAssign | nonConstCopyAssign | moveAssign
deriving DecidableEq, Repr, Inhabited

/-- `ExplicitFound`: engine/src/conversion/analysis/fun/implicit_constructors.rs:157-166. -/
inductive ExplicitFound where
  | userDefined (v : CppVisibility)
  | deleted
  | multiple
deriving DecidableEq, Repr, Inhabited

/-- The map of explicit items, keyed by `ExplicitType`
(engine/src/conversion/analysis/fun/implicit_constructors.rs:149-153). -/
abbrev Explicits := AMap (QName × ExplicitKind) ExplicitFound

/-- `merge_fun`: engine/src/conversion/analysis/fun/implicit_constructors.rs:579-592. -/
def mergeFun (m : Explicits) (ty : QName) (k : ExplicitKind) (f : FuncToConvert) : Explicits :=
  match m.get? (ty, k) with
  | none => m.insert (ty, k)
      (if f.isDeleted = some .deleted then .deleted else .userDefined f.cppVis)
  | some _ => m.insert (ty, k) .multiple

/-- `type_is_reference`: engine/src/conversion/type_helpers.rs:60-76. -/
def typeIsReference (ty : Ty) (rvalue : Bool) : Bool :=
  match ty with
  | .path (s :: _) _ =>
    s = if rvalue then "__bindgen_marker_RValueReference" else "__bindgen_marker_Reference"
  | _ => false

/-- `any_input_is_rvalue_reference`:
engine/src/conversion/analysis/fun/implicit_constructors.rs:702-709. -/
def anyInputIsRvalueReference (inputs : List FnArg) : Bool :=
  inputs.any fun
    | .receiver _ => false
    | .typed _ ty => typeIsReference ty true

/-- What one item contributes to the explicit items. -/
inductive Contribution where
  | explicit (ty : QName) (k : ExplicitKind) (f : FuncToConvert)
  | unknown (ty : QName)
  | nothing
  | panic

/-- The `match` in the loop of `find_explicit_items`:
engine/src/conversion/analysis/fun/implicit_constructors.rs:595-698. `panic` stands for the `unwrap`s
of lines 619-626. -/
def contribution : FnPre1Api → Contribution
  | .function _ f a =>
    match a.kind with
    | .method mk ty =>
      if f.specialMember = some .assignmentOperator then
        if a.ignoreReason = none ∨ (a.ignoreReason.map (·.err)) = some .assignmentOperator then
          if !anyInputIsRvalueReference f.inputs then .explicit ty .moveAssign f
          else
            match a.paramDetails with
            | [] => .panic
            | p :: _ =>
              match p.selfType with
              | none => .panic
              | some (_, .const) => .explicit ty .constCopyAssign f
              | some (_, .mutable) => .explicit ty .nonConstCopyAssign f
        else .unknown ty
      else
        match mk with
        | .constructor true => .explicit ty .defaultConstructor f
        | .constructor false => .explicit ty .otherConstructor f
        | _ => .nothing
    | .traitMethod k ty _ =>
      match k with
      | .destructor => .explicit ty .destructor f
      | .copyConstructor => .explicit ty .constCopy f
      | .moveConstructor => .explicit ty .moveConstructor f
      | _ => .nothing
    | .function => .nothing
  | _ => .nothing

/-- `find_explicit_items`: engine/src/conversion/analysis/fun/implicit_constructors.rs:575-700. `none` is
a panic. -/
def findExplicitItems (apis : List FnPre1Api) : Option (Explicits × List QName) :=
  apis.foldl (init := some ([], [])) fun st a =>
    st.bind fun (m, u) =>
      match contribution a with
      | .explicit ty k f => some (mergeFun m ty k f, u)
      | .unknown ty => some (m, setInsert u ty)
      | .nothing => some (m, u)
      | .panic => none

/-- `known_type_items_found`: engine/src/conversion/analysis/fun/implicit_constructors.rs:712-729, given
whether there is a move and a const copy constructor. -/
def knownTypeItems (d : Bool × Bool) : ItemsFound :=
  { defaultConstructor := .explicit .pub
    destructor := .explicit .pub
    constCopy := if d.2 then .explicit .pub else .notPresent
    nonConstCopy := .notPresent
    moveConstructor := if d.1 then .explicit .pub else .notPresent
    name := none }

/-- What is assumed of an enum, a pointer or a reference:
engine/src/conversion/analysis/fun/implicit_constructors.rs:230-237 and 265-272. -/
def scalarItems (n : ApiName) : ItemsFound :=
  { defaultConstructor := .notPresent
    destructor := .implicit
    constCopy := .implicit
    nonConstCopy := .notPresent
    moveConstructor := .implicit
    name := some n }

/-- `get_items_found`: engine/src/conversion/analysis/fun/implicit_constructors.rs:228-244. -/
def getItemsFound (enums : List QName) (n : ApiName) (found : AMap QName ItemsFound) (q : QName) :
    Option ItemsFound :=
  if q ∈ enums then some (scalarItems n)
  else
    match constructorDetails q with
    | some d => some (knownTypeItems d)
    | none => found.get? q

/-- `map_while(..).collect()`. -/
def mapWhile {α β : Type} (f : α → Option β) : List α → List β
  | [] => []
  | a :: l =>
    match f a with
    | some b => b :: mapWhile f l
    | none => []

/-- The items of one field: engine/src/conversion/analysis/fun/implicit_constructors.rs:248-274. The
outer `none` is a panic in `from_type_path`. -/
def fieldItems (get : QName → Option ItemsFound) (n : ApiName) (f : FieldInfo) :
    Option (Option ItemsFound) :=
  match f.typeKind with
  | .regular | .subclassHolder _ =>
    match f.ty with
    | .path segs _ => (QName.ofTypePath segs).map get
    | .array (.path segs _) _ => (QName.ofTypePath segs).map get
    | _ => some none
  | _ => some (some (scalarItems n))

/-- The items of all the fields: engine/src/conversion/analysis/fun/implicit_constructors.rs:246-276. -/
def fieldsItems (get : QName → Option ItemsFound) (n : ApiName) : List FieldInfo → Option (List ItemsFound)
  | [] => some []
  | f :: l =>
    (fieldItems get n f).bind fun i =>
      (fieldsItems get n l).map fun r =>
        match i with
        | some i => i :: r
        | none => r

/-- An explicit item as found: engine/src/conversion/analysis/fun/implicit_constructors.rs:297-310, and
the `else if` / `else` branches of each of the decisions below. -/
def explicitState : Option ExplicitFound → SpecialMemberFound
  | some (.userDefined v) => .explicit v
  | _ => .notPresent

/-- The case in which not all bases and fields are understood:
engine/src/conversion/analysis/fun/implicit_constructors.rs:293-333. -/
def explicitOnly (find : ExplicitKind → Option ExplicitFound) (n : ApiName) : ItemsFound :=
  { defaultConstructor := explicitState (find .defaultConstructor)
    destructor :=
      match find .destructor with
      | none => .implicit
      | some .multiple => .explicit .pub
      | some .deleted => .notPresent
      | some (.userDefined v) => .explicit v
    constCopy := explicitState (find .constCopy)
    nonConstCopy := explicitState (find .nonConstCopy)
    moveConstructor := explicitState (find .moveConstructor)
    name := some n }

/-- `SpecialMemberFound::Implicit` or `NotPresent`. -/
def implicitIf (b : Bool) : SpecialMemberFound := if b then .implicit else .notPresent

/-- The default constructor: engine/src/conversion/analysis/fun/implicit_constructors.rs:355-397. -/
def decideDefault (find : ExplicitKind → Option ExplicitFound) (rvalueFields : Bool)
    (bases fields : List ItemsFound) : SpecialMemberFound :=
  if (find .defaultConstructor).isNone && !([ExplicitKind.constCopy, .nonConstCopy, .moveConstructor,
      .otherConstructor].any fun k => (find k).isSome) then
    implicitIf (!rvalueFields &&
      bases.all (fun i => i.destructor.callableSubclass && i.defaultConstructor.callableSubclass) &&
      fields.all fun i => i.destructor.callableAny && i.defaultConstructor.callableAny)
  else explicitState (find .defaultConstructor)

/-- The destructor: engine/src/conversion/analysis/fun/implicit_constructors.rs:406-429. -/
def decideDestructor (find : ExplicitKind → Option ExplicitFound) (bases fields : List ItemsFound) :
    SpecialMemberFound :=
  if (find .destructor).isNone then
    implicitIf (bases.all (fun i => i.destructor.callableSubclass) &&
      fields.all fun i => i.destructor.callableAny)
  else explicitState (find .destructor)

/-- The copy constructors, const and non-const:
engine/src/conversion/analysis/fun/implicit_constructors.rs:444-499. -/
def decideCopy (find : ExplicitKind → Option ExplicitFound) (rvalueFields : Bool)
    (bases fields : List ItemsFound) : SpecialMemberFound × SpecialMemberFound :=
  if (find .constCopy).isNone && (find .nonConstCopy).isNone then
    if (find .moveConstructor).isNone && !rvalueFields &&
        bases.all (fun i => i.destructor.callableSubclass &&
          (i.constCopy.callableSubclass || i.nonConstCopy.callableSubclass)) &&
        fields.all (fun i => i.destructor.callableAny &&
          (i.constCopy.callableAny || i.nonConstCopy.callableAny)) then
      if (bases ++ fields).all fun i => i.constCopy.present then (.implicit, .notPresent)
      else (.notPresent, .implicit)
    else (.notPresent, .notPresent)
  else (explicitState (find .constCopy), explicitState (find .nonConstCopy))

/-- The move constructor: engine/src/conversion/analysis/fun/implicit_constructors.rs:515-546. -/
def decideMove (find : ExplicitKind → Option ExplicitFound) (bases fields : List ItemsFound) :
    SpecialMemberFound :=
  if !((find .moveConstructor).isSome || (find .constCopy).isSome || (find .nonConstCopy).isSome ||
      (find .constCopyAssign).isSome || (find .nonConstCopyAssign).isSome ||
      (find .moveAssign).isSome || (find .destructor).isSome) then
    implicitIf (bases.all (fun i => i.destructor.callableSubclass && i.moveConstructor.callableSubclass) &&
      fields.all fun i => i.moveConstructor.callableAny)
  else explicitState (find .moveConstructor)

/-- The case in which all bases and fields are understood:
engine/src/conversion/analysis/fun/implicit_constructors.rs:340-560. -/
def fullItems (find : ExplicitKind → Option ExplicitFound) (n : ApiName) (rvalueFields : Bool)
    (bases fields : List ItemsFound) : ItemsFound :=
  let copy := decideCopy find rvalueFields bases fields
  { defaultConstructor := decideDefault find rvalueFields bases fields
    destructor := decideDestructor find bases fields
    constCopy := copy.1
    nonConstCopy := copy.2
    moveConstructor := decideMove find bases fields
    name := some n }

/-- Whether the struct is one the analysis considers: the pattern at
engine/src/conversion/analysis/fun/implicit_constructors.rs:205-220. -/
def analysed (a : PodAnalysis) : Bool :=
  (a.kind = .abstract || a.kind = .pod || a.kind = .nonPod) && a.numGenerics = 0 &&
    !a.inAnonymousNamespace

/-- The items of one class, given those of the classes already seen:
engine/src/conversion/analysis/fun/implicit_constructors.rs:222-560. `none` is a panic. -/
def classItems (explicits : Explicits) (unknown enums : List QName) (found : AMap QName ItemsFound)
    (n : ApiName) (d : StructDetails) (a : PodAnalysis) : Option ItemsFound :=
  let find := fun k => explicits.get? (n.name, k)
  let get := getItemsFound enums n found
  let bases := mapWhile get a.bases
  (fieldsItems get n a.fieldInfo).map fun fields =>
    if bases.length ≠ a.bases.length ∨ fields.length ≠ a.fieldInfo.length ∨ n.name ∈ unknown then
      explicitOnly find n
    else fullItems find n d.hasRvalueReferenceFields bases fields

/-- The body of the loop: engine/src/conversion/analysis/fun/implicit_constructors.rs:203-569. The
`assert!` about duplicate structs is the case of an existing entry. -/
def classStep (explicits : Explicits) (unknown enums : List QName) (st : Option (AMap QName ItemsFound)) :
    FnPre1Api → Option (AMap QName ItemsFound)
  | .struct n d a =>
    if analysed a then
      st.bind fun found =>
        (classItems explicits unknown enums found n d a).bind fun i =>
          if (found.get? n.name).isSome then none else some (found.insert n.name i)
    else st
  | _ => st

/-- The names of the enums: engine/src/conversion/analysis/fun/implicit_constructors.rs:183-189. -/
def enumNames (apis : List FnPre1Api) : List QName :=
  apis.filterMap fun
    | .enum n _ => some n.name
    | _ => none

/-- `find_constructors_present`: engine/src/conversion/analysis/fun/implicit_constructors.rs:179-573.
`none` is a panic. -/
def findConstructorsPresent (apis : List FnPre1Api) : Option (AMap QName ItemsFound) :=
  (findExplicitItems apis).bind fun (explicits, unknown) =>
    match fieldsAndBasesFirst Api.name FnPre1Api.fieldAndBaseDeps apis with
    | .ok order => order.foldl (classStep explicits unknown (enumNames apis)) (some [])
    | _ => none

/-! ## What is synthesized -/

/-- The members to synthesize for one class, in the order of
engine/src/conversion/analysis/fun/mod.rs:2068-2103. -/
def membersNeeded (i : ItemsFound) : List SpecialMemberKind :=
  (if i.defaultNeeded then [.defaultConstructor] else []) ++
  (if i.moveNeeded then [.moveConstructor] else []) ++
  (if i.copyNeeded then [.copyConstructor] else []) ++
  (if i.destructorNeeded then [.destructor] else [])

/-- The special members `add_constructors_present` synthesizes, with their class:
engine/src/conversion/analysis/fun/mod.rs:2052-2104. The conversion of each by
`analyze_foreign_fn_and_subclasses` is not part of this definition. -/
def synthesized (cfg : Config) (found : AMap QName ItemsFound) : List (QName × SpecialMemberKind) :=
  found.flatMap fun (ty, i) =>
    if cfg.excludeImpls || cfg.isOnConstructorBlocklist ty.toCppName then []
    else (membersNeeded i).map fun k => (ty, k)

/-- `PublicConstructors::from_items_found`: engine/src/conversion/analysis/fun/mod.rs:263-270. -/
def publicConstructors (i : ItemsFound) : PublicConstructors :=
  { moveConstructor := i.moveConstructor.callableAny
    destructor := i.destructor.callableAny }

end Verif
