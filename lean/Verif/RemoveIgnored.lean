import Verif.Gc

/-!
# Removal of items which depend on ignored or unknown ones

engine/src/conversion/analysis/remove_ignored.rs.
-/

set_option autoImplicit false

namespace Verif

/-- `create_ignore_item`: engine/src/conversion/analysis/remove_ignored.rs:72-101. -/
def createIgnoreItem (a : FnApi) (err : Err) : FnApi :=
  .ignoredItem a.nameInfo err (match a with
    | .function n _ an =>
      match an.kind with
      | .traitMethod .. => none
      | .method _ implFor => some (ErrorContext.newForMethod implFor.name n.name.name)
      | .function => some (ErrorContext.newForItem n.name.name)
    | a => some (ErrorContext.newForItem a.name.name))

/-- `known_types().is_known_type(dep) || valid_types.contains(dep)`, the negation of the test at
engine/src/conversion/analysis/remove_ignored.rs:52-54. -/
def depKnown (valid : List QName) (d : QName) : Bool := d ∈ valid || isKnownType d

/-- One pass of the loop body over all items, engine/src/conversion/analysis/remove_ignored.rs:36-67:
the ignored set, the `iterate_again` flag and the new items. The set grows during the pass. -/
def riPass (valid : List QName) (ign : List QName) : List FnApi → List QName × Bool × List FnApi
  | [] => (ign, false, [])
  | a :: r =>
    let bad := (FnApi.deps a).filter (· ∈ ign)
    if bad ≠ [] then
      let p := riPass valid (setInsert ign a.name) r
      (p.1, true, createIgnoreItem a (.ignoredDependent (bad.foldl setInsert [])) :: p.2.2)
    else
      let p := riPass valid ign r
      match (FnApi.deps a).find? (fun d => !depKnown valid d) with
      | some d => (p.1, p.2.1, createIgnoreItem a (.unknownDependentType d) :: p.2.2)
      | none => (p.1, p.2.1, a :: p.2.2)

/-- Number of items which are not ignored: the loop's termination measure. -/
def liveCount {T S F : Type} (l : List (Api T S F)) : Nat := l.countP fun a => !a.isIgnored

theorem liveCount_push_le {T S F : Type} (v : ApiVec T S F) (a : Api T S F) :
    liveCount (v.push a).apis ≤ liveCount v.apis + liveCount [a] := by
  unfold ApiVec.push
  split
  · split
    · simp
    · have hm : liveCount [(ApiVec.duplicateMarker a.name : Api T S F)] = 0 := rfl
      have hf : liveCount (v.retain fun b => b.name ≠ a.name).apis ≤ liveCount v.apis := by
        unfold liveCount ApiVec.retain
        exact List.Sublist.countP_le List.filter_sublist
      unfold ApiVec.pushMarker
      split
      · omega
      · simp only [ApiVec.pushNew, liveCount, List.countP_append] at hm hf ⊢
        omega
  · simp [ApiVec.pushNew, liveCount, List.countP_append]

theorem liveCount_extend_le {T S F : Type} (v : ApiVec T S F) (l : List (Api T S F)) :
    liveCount (v.extend l).apis ≤ liveCount v.apis + liveCount l := by
  induction l generalizing v with
  | nil => simp [ApiVec.extend]
  | cons a r ih =>
    have h1 := ih (v.push a)
    have h2 := liveCount_push_le v a
    have h3 : liveCount (a :: r) = liveCount [a] + liveCount r := by
      unfold liveCount
      rw [← List.countP_append]; rfl
    show liveCount ((v.push a).extend r).apis ≤ _
    omega

theorem deps_ignored {a : FnApi} (h : a.isIgnored = true) : FnApi.deps a = [] := by
  cases a <;> simp_all [Api.isIgnored, FnApi.deps]

theorem riPass_liveCount (valid ign : List QName) (l : List FnApi) :
    liveCount (riPass valid ign l).2.2 ≤ liveCount l ∧
    ((riPass valid ign l).2.1 = true → liveCount (riPass valid ign l).2.2 < liveCount l) := by
  have hc : ∀ (a : FnApi) (r : List FnApi), liveCount (a :: r) =
      liveCount r + if a.isIgnored then 0 else 1 := by
    intro a r; cases h : a.isIgnored <;> simp [liveCount, h]
  have hm : ∀ (a : FnApi) (e : Err), (createIgnoreItem a e).isIgnored = true := fun _ _ => rfl
  induction l generalizing ign with
  | nil => simp [riPass]
  | cons a r ih =>
    unfold riPass
    simp only
    split
    · rename_i hb
      have hi : a.isIgnored = false := by
        cases h : a.isIgnored with
        | false => rfl
        | true => simp [deps_ignored h] at hb
      have := (ih (setInsert ign a.name)).1
      simp only [hc, hm, hi, if_true]
      constructor
      · simp; omega
      · intro _; simp; omega
    · have ih := ih ign
      split
      · simp only [hc, hm, if_true]
        constructor
        · split <;> omega
        · intro h; have := ih.2 h; split <;> omega
      · simp only [hc]
        constructor
        · omega
        · intro h; have := ih.2 h; omega

/-- The `while iterate_again` loop: engine/src/conversion/analysis/remove_ignored.rs:33-68. -/
def riLoop (valid ign : List QName) (apis : FnApiVec) : FnApiVec :=
  if (riPass valid ign apis.apis).2.1 then
    riLoop valid (riPass valid ign apis.apis).1 (ApiVec.fromIter (riPass valid ign apis.apis).2.2)
  else ApiVec.fromIter (riPass valid ign apis.apis).2.2
termination_by liveCount apis.apis
decreasing_by
  rename_i h
  have h1 := (riPass_liveCount valid ign apis.apis).2 h
  have h2 := liveCount_extend_le ({} : FnApiVec) (riPass valid ign apis.apis).2.2
  have h3 : liveCount ({} : FnApiVec).apis = 0 := rfl
  unfold ApiVec.fromIter
  omega

/-- `filter_apis_by_ignored_dependents`: engine/src/conversion/analysis/remove_ignored.rs:21-70. -/
def removeIgnored (apis : FnApiVec) : FnApiVec :=
  riLoop ((apis.apis.filter (!·.isIgnored)).flatMap Api.validTypes)
    ((apis.apis.filter (·.isIgnored)).map (·.name)) apis

end Verif
