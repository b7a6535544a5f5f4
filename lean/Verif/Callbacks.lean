import Verif.Names
import Verif.ApiVec

/-!
# What bindgen reports about the C++ items

`ParseCallbackResults` and the callbacks which fill it: engine/src/parse_callbacks.rs. Items are known by
numbers (`DiscoveredItemId`).
-/

set_option autoImplicit false

namespace Verif

/-- `UnindexedParseCallbackResults`: engine/src/parse_callbacks.rs:123-133. -/
structure Callbacks where
  originalNames : AMap Nat String := []
  virtuals : AMap Nat Virtualness := []
  rootMod : Option Nat := none
  visibility : AMap Nat CppVisibility := []
  specialMembers : AMap Nat SpecialMemberKind := []
  explicitness : AMap Nat Explicitness := []
  discards : List Nat := []
  names : AMap Nat String := []
  mods : AMap Nat Nat := []
deriving DecidableEq, Repr

/-- The calls bindgen makes to `AutocxxParseCallbacks` (engine/src/parse_callbacks.rs:269-367) which leave
something behind. `found` stands for the five kinds of items with a name of their own, `foundOther` for the
rest of `DiscoveredItem`. -/
inductive BindgenEvent where
  | cppName (item : Nat) (original : Option String) (parent : Option Nat)
  | virtualness (item : Nat) (v : Virtualness)
  | found (item : Nat) (finalName : String)
  | foundMod (item : Nat) (finalName : String) (parent : Option Nat)
  | foundOther (item : Nat)
  | visibility (item : Nat) (v : CppVisibility)
  | specialMember (item : Nat) (k : SpecialMemberKind)
  | explicit (item : Nat) (e : Explicitness)
  | discardsTemplateParam (item : Nat)
deriving DecidableEq, Repr

/-- One callback: engine/src/parse_callbacks.rs:292-366. -/
def Callbacks.note (cb : Callbacks) : BindgenEvent → Callbacks
  | .cppName i o p =>
    { cb with
      originalNames := match o with
        | some o => cb.originalNames.insert i (stripBindgenSuffix o)
        | none => cb.originalNames
      mods := match p with
        | some p => cb.mods.insert i p
        | none => cb.mods }
  | .virtualness i v => { cb with virtuals := cb.virtuals.insert i v }
  | .found i n => { cb with names := cb.names.insert i (stripBindgenSuffix n) }
  | .foundMod i n (some p) => { cb with names := cb.names.insert i n, mods := cb.mods.insert i p }
  | .foundMod i n none => { cb with names := cb.names.insert i n, rootMod := some i }
  | .foundOther _ => cb
  | .visibility i v => if v = .pub then cb else { cb with visibility := cb.visibility.insert i v }
  | .specialMember i k => { cb with specialMembers := cb.specialMembers.insert i k }
  | .explicit i e => { cb with explicitness := cb.explicitness.insert i e }
  | .discardsTemplateParam i => { cb with discards := setInsert cb.discards i }

/-- Everything bindgen reported in a run. -/
def Callbacks.ofEvents (l : List BindgenEvent) : Callbacks := l.foldl Callbacks.note {}

namespace Callbacks

/-- `index`: engine/src/parse_callbacks.rs:136-158. Later entries with the same key replace earlier ones. -/
def index (cb : Callbacks) : AMap (Nat × String) Nat :=
  (cb.mods.filterMap fun e => (cb.names.get? e.1).map fun n => ((e.2, n), e.1)).foldl
    (fun m e => m.insert e.1 e.2) []

/-- `mod_id_by_inner_namespace`: engine/src/parse_callbacks.rs:208-224. -/
def modIdFrom (index : AMap (Nat × String) Nat) : Nat → List String → Option Nat
  | parent, [] => some parent
  | parent, n :: ns => (index.get? (parent, n)).bind fun child => modIdFrom index child ns

/-- `id_by_name`, `mod_id_by_namespace` and `get_root_mod`: engine/src/parse_callbacks.rs:187-206. The outer
`none` is the panic "Root mod not yet reported by bindgen". -/
def idByName (cb : Callbacks) (q : QName) : Option (Option Nat) :=
  cb.rootMod.map fun root =>
    (modIdFrom cb.index root q.ns).bind fun parent => cb.index.get? (parent, q.name)

/-- `get_fn_original_name`, `get_original_name`: engine/src/parse_callbacks.rs:172-180. -/
def originalName (cb : Callbacks) (q : QName) : Option (Option String) :=
  (cb.idByName q).map fun i => i.bind cb.originalNames.get?

/-- `get_virtualness`: engine/src/parse_callbacks.rs:182-185. -/
def virtualnessOf (cb : Callbacks) (q : QName) : Option (Option Virtualness) :=
  (cb.idByName q).map fun i => i.bind cb.virtuals.get?

/-- `get_cpp_visibility`: engine/src/parse_callbacks.rs:226-230. -/
def cppVisibilityOf (cb : Callbacks) (q : QName) : Option CppVisibility :=
  (cb.idByName q).map fun i => (i.bind cb.visibility.get?).getD .pub

/-- `special_member_kind`: engine/src/parse_callbacks.rs:232-235. -/
def specialMemberOf (cb : Callbacks) (q : QName) : Option (Option SpecialMemberKind) :=
  (cb.idByName q).map fun i => i.bind cb.specialMembers.get?

/-- `get_deleted_or_defaulted`: engine/src/parse_callbacks.rs:237-240. -/
def explicitnessOf (cb : Callbacks) (q : QName) : Option (Option Explicitness) :=
  (cb.idByName q).map fun i => i.bind cb.explicitness.get?

/-- `discards_template_param`: engine/src/parse_callbacks.rs:242-246. -/
def discardsOf (cb : Callbacks) (q : QName) : Option Bool :=
  (cb.idByName q).map fun i => match i with
    | some i => decide (i ∈ cb.discards)
    | none => false

end Callbacks
end Verif
