import Verif.AMap
import Verif.Dec

/-!
# Names for overloads, and names in the bridge

engine/src/conversion/analysis/fun/overload_tracker.rs and
engine/src/conversion/analysis/fun/bridge_name_tracker.rs.
-/

set_option autoImplicit false

namespace Verif

/-- `OverloadTracker`: engine/src/conversion/analysis/fun/overload_tracker.rs:13-27. -/
structure OverloadTracker where
  offsetByName : AMap String Nat := []
  offsetByTypeAndName : AMap String (AMap String Nat) := []

/-- The update of one registry and the name that comes out:
engine/src/conversion/analysis/fun/overload_tracker.rs:46-53. -/
def bumpOffset (reg : AMap String Nat) (n : String) : AMap String Nat × String :=
  let off := (reg.get? n).getD 0
  (reg.insert n (off + 1), if off = 0 then n else n ++ dec off)

/-- `OverloadTracker::get_name`: engine/src/conversion/analysis/fun/overload_tracker.rs:38-54. -/
def OverloadTracker.getName (t : OverloadTracker) (ty : Option String) (n : String) :
    OverloadTracker × String :=
  match ty with
  | some ty =>
    let r := bumpOffset ((t.offsetByTypeAndName.get? ty).getD []) n
    ({ t with offsetByTypeAndName := t.offsetByTypeAndName.insert ty r.1 }, r.2)
  | none =>
    let r := bumpOffset t.offsetByName n
    ({ t with offsetByName := r.1 }, r.2)

/-- Naming a sequence of functions, each with the type it belongs to, if any. -/
def OverloadTracker.run (t : OverloadTracker) : List (Option String × String) → List String
  | [] => []
  | (ty, n) :: r => (t.getName ty n).2 :: OverloadTracker.run (t.getName ty n).1 r

/-- `itertools::join("_")`. -/
def joinU : List String → String
  | [] => ""
  | [a] => a
  | a :: b :: r => a ++ "_" ++ joinU (b :: r)

/-- `BridgeNameTracker`: engine/src/conversion/analysis/fun/bridge_name_tracker.rs:50-53. -/
abbrev BridgeNameTracker := AMap String Nat

/-- A request for a bridge name: the type of a method, the plain name, the namespace. -/
structure BridgeReq where
  ty : Option String
  found : String
  ns : List String
deriving DecidableEq, Repr

/-- The plain name, with the exception for `new`:
engine/src/conversion/analysis/fun/bridge_name_tracker.rs:79-83. -/
def BridgeReq.plain (r : BridgeReq) : String := if r.found = "new" then "new_autocxx" else r.found

/-- The qualified name: engine/src/conversion/analysis/fun/bridge_name_tracker.rs:93-98. -/
def BridgeReq.qualified (r : BridgeReq) : String := joinU (r.ns ++ (r.ty.toList ++ [r.plain]))

/-- `get_unique_cxx_bridge_name`: engine/src/conversion/analysis/fun/bridge_name_tracker.rs:73-111. -/
def BridgeNameTracker.getName (t : BridgeNameTracker) (r : BridgeReq) : BridgeNameTracker × String :=
  let count := (t.get? r.plain).getD 0
  if count = 0 then (t.insert r.plain 1, r.plain)
  else
    let count := (t.get? r.qualified).getD 0
    if count = 0 then (t.insert r.qualified 1, r.qualified)
    else (t.insert r.qualified (count + 1), r.qualified ++ "_autocxx" ++ dec count)

/-- Naming a sequence of functions. -/
def BridgeNameTracker.run (t : BridgeNameTracker) : List BridgeReq → List String
  | [] => []
  | r :: rs => (t.getName r).2 :: BridgeNameTracker.run (t.getName r).1 rs

end Verif
