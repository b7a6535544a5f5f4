import Verif.Deps

/-!
# Garbage collection from the allowlist

engine/src/conversion/analysis/gc.rs.
-/

set_option autoImplicit false

namespace Verif

/-- An analysed vector of items, `ApiVec<FnPhase>`. -/
abbrev FnApiVec := ApiVec TypedefAnalysis PodAndDepAnalysis FnAnalysis

/-- `by_typename`: engine/src/conversion/analysis/gc.rs:51-55. -/
def gcGroup (l : List FnApi) : AMap QName FnApiVec :=
  l.foldl (fun m a => m.insert a.name (((m.get? a.name).getD {}).push a)) []

theorem AMap.erase_length_lt {κ α : Type} [DecidableEq κ] {m : AMap κ α} {k : κ} {v : α}
    (h : m.get? k = some v) : (m.erase k).length < m.length := by
  have hm := AMap.get?_mem h
  unfold AMap.erase
  refine List.length_filter_lt_length_iff_exists.2 ⟨_, hm, by simp⟩

/-- The work-list loop: engine/src/conversion/analysis/gc.rs:56-69. It terminates because each step
either removes a group from the map or just shortens the list. -/
def gcLoop (todos : List QName) (m : AMap QName FnApiVec) (done : List QName) (out : FnApiVec) :
    FnApiVec :=
  match todos with
  | [] => out
  | t :: rest =>
    if t ∈ done then gcLoop rest m done out
    else
      match _h : m.get? t with
      | some these => gcLoop (rest ++ these.apis.flatMap FnApi.deps) (m.erase t) (t :: done)
          (out.append these).1
      | none => gcLoop rest m (t :: done) out
termination_by (m.length, todos.length)
decreasing_by
  · exact Prod.Lex.right _ (by simp)
  · exact Prod.Lex.left _ _ (AMap.erase_length_lt _h)
  · exact Prod.Lex.right _ (by simp)

/-- Evaluates a test which may panic on every item, giving the items which pass it; `none` if it
panics on any. -/
def filterOpt {α : Type} (p : α → Option Bool) : List α → Option (List α)
  | [] => some []
  | a :: r => do
    let b ← p a
    let r' ← filterOpt p r
    pure (if b then a :: r' else r')

/-- `filter_apis_by_following_edges_from_allowlist`: engine/src/conversion/analysis/gc.rs:37-70.
`none` is the panic of `is_on_allowlist` for an undecided allowlist. -/
def gc (hash : Config → Nat) (c : Config) (apis : FnApiVec) : Option FnApiVec := do
  let roots ← filterOpt (fun a : FnApi => c.isOnAllowlist hash a.nameForAllowlist.toCppName) apis.apis
  pure (gcLoop (roots.map (·.name)) (gcGroup apis.apis) [] {})

end Verif
