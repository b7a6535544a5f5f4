import Verif.AMap
import Verif.Core

/-!
# Modules for namespaces

engine/src/conversion/codegen_rs/namespace_organizer.rs, and the part of engine/src/conversion/codegen_rs/mod.rs which
turns the tree it makes into nested `mod` items.
-/

set_option autoImplicit false

namespace Verif

mutual
/-- `NamespaceEntries`: engine/src/conversion/codegen_rs/namespace_organizer.rs:16-19. -/
inductive NsTree (α : Type) where
  | node (entries : List α) (children : NsKids α)
/-- The `BTreeMap` of the children of a `NamespaceEntries`, in the order of their names:
engine/src/conversion/codegen_rs/namespace_organizer.rs:18. -/
inductive NsKids (α : Type) where
  | nil
  | cons (name : String) (tree : NsTree α) (rest : NsKids α)
end

/-- `BTreeMap::entry(k).or_insert_with(Vec::new)` followed by `push`:
engine/src/conversion/codegen_rs/namespace_organizer.rs:49-52. -/
def btPush {α : Type} : List (String × List α) → String → α → List (String × List α)
  | [], k, v => [(k, [v])]
  | (k', vs) :: m, k, v =>
    if k = k' then (k', vs ++ [v]) :: m
    else if k < k' then (k, [v]) :: (k', vs) :: m
    else (k', vs) :: btPush m k v

/-- One turn of the loop of `sort_by_inner_namespace`: engine/src/conversion/codegen_rs/namespace_organizer.rs:46-56. -/
def nsSplitStep {α : Type} (nsOf : α → List String) (depth : Nat) (acc : List α × List (String × List α)) (a : α) :
    List α × List (String × List α) :=
  match (nsOf a)[depth]? with
  | some e => (acc.1, btPush acc.2 e a)
  | none => (acc.1 ++ [a], acc.2)

/-- The loop of engine/src/conversion/codegen_rs/namespace_organizer.rs:58-61, given what one turn does. -/
def nsChildren {α : Type} (f : List α → Option (NsTree α)) : List (String × List α) → Option (NsKids α)
  | [] => some .nil
  | (k, v) :: l =>
    match f v, nsChildren f l with
    | some t, some r => some (.cons k t r)
    | _, _ => none

/-- `sort_by_inner_namespace`: engine/src/conversion/codegen_rs/namespace_organizer.rs:39-64. The code recurses with no
bound; here the first argument bounds the depth of the recursion, and `none` means that it was not enough. -/
def nsSort {α : Type} (nsOf : α → List String) : Nat → List α → Nat → Option (NsTree α)
  | 0, _, _ => none
  | fuel + 1, items, depth =>
    let r := items.foldl (nsSplitStep nsOf depth) ([], [])
    (nsChildren (fun v => nsSort nsOf fuel v (depth + 1)) r.2).map (.node r.1)

mutual
/-- `is_empty`: engine/src/conversion/codegen_rs/namespace_organizer.rs:27-29. -/
def NsTree.isEmpty {α : Type} : NsTree α → Bool
  | .node entries children => entries.isEmpty && children.allEmpty
/-- The `all` of `is_empty`: engine/src/conversion/codegen_rs/namespace_organizer.rs:28. -/
def NsKids.allEmpty {α : Type} : NsKids α → Bool
  | .nil => true
  | .cons _ t r => t.isEmpty && r.allEmpty
end

/-- What one item contributes to the module of its namespace: three fields of `RsCodegenResult`
(engine/src/conversion/codegen_rs/mod.rs:1094-1105), with `ImplBlockDetails` (61-64) and `TraitImplBlockDetails`
(66-69). `ι` are Rust items, `κ` types, `τ` trait signatures and `μ` members of `impl` blocks. -/
structure RsPiece (ι κ τ μ : Type) where
  items : List ι := []
  implEntry : Option (κ × μ) := none
  traitImplEntry : Option (τ × μ) := none

/-- The items put in the output modules by `append_child_output_namespace`. -/
inductive OutItem (ι κ τ μ : Type) where
  | item (i : ι)
  | impl (ty : κ) (members : List μ)
  | traitImpl (key : τ) (members : List μ)
  /-- `use super::{cxxbridge, output, bindgen};` -/
  | imports
  | mod (name : String) (contents : List (OutItem ι κ τ μ))

section
variable {ι κ τ μ : Type} [DecidableEq κ] [DecidableEq τ]

/-- `entry(k).or_default().push(v)` on an `IndexMap`: engine/src/conversion/codegen_rs/mod.rs:323-326,329-332. -/
def groupPush {κ μ : Type} [DecidableEq κ] (m : AMap κ (List μ)) (e : κ × μ) : AMap κ (List μ) :=
  AMap.insert m e.1 ((AMap.get? m e.1).getD [] ++ [e.2])

/-- The loops of engine/src/conversion/codegen_rs/mod.rs:319-335, for one of the two maps. -/
def groupEntries {κ μ : Type} [DecidableEq κ] (l : List (κ × μ)) : AMap κ (List μ) := l.foldl groupPush []

mutual
/-- `append_child_output_namespace`: engine/src/conversion/codegen_rs/mod.rs:311-371. The names of namespaces are
identifiers, as each was the name of a module. -/
def outputModule {α : Type} (piece : α → RsPiece ι κ τ μ) : NsTree α → List (OutItem ι κ τ μ)
  | .node entries children =>
    entries.flatMap (fun e => (piece e).items.map .item) ++
      (groupEntries (entries.filterMap fun e => (piece e).implEntry)).map (fun g => .impl g.1 g.2) ++
      (groupEntries (entries.filterMap fun e => (piece e).traitImplEntry)).map (fun g => .traitImpl g.1 g.2) ++
      outputChildren piece children
/-- The loop over the children: engine/src/conversion/codegen_rs/mod.rs:353-370. -/
def outputChildren {α : Type} (piece : α → RsPiece ι κ τ μ) : NsKids α → List (OutItem ι κ τ μ)
  | .nil => []
  | .cons name t r =>
    (if t.isEmpty then [] else [.mod name (.imports :: outputModule piece t)]) ++ outputChildren piece r
end

/-- `generate_final_output_namespace`: engine/src/conversion/codegen_rs/mod.rs:302-309. The fuel is as in `nsSort`. -/
def outputModules (fuel : Nat) (l : List (QName × RsPiece ι κ τ μ)) : Option (List (OutItem ι κ τ μ)) :=
  (nsSort (fun e : QName × RsPiece ι κ τ μ => e.1.ns) fuel l 0).map (outputModule (·.2))

end

/-- `find_output_mod_root`: engine/src/conversion/codegen_rs/utils.rs:27-29. -/
def outputModRoot (ns : List String) : List String := List.replicate ns.length "super"

/-- The path of `generate_cxx_use_stmt`: engine/src/conversion/codegen_rs/utils.rs:13-17. -/
def cxxUsePath (name : QName) : List String := outputModRoot name.ns ++ ["cxxbridge"] ++ [name.name]

end Verif
