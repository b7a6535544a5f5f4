/-!
# Insertion-ordered maps

`indexmap::IndexMap` (which autocxx uses under the name `HashMap`) as an association list with
distinct keys in insertion order.
-/

set_option autoImplicit false

namespace Verif

/-- `IndexMap<κ, α>`: entries in insertion order. -/
abbrev AMap (κ α : Type) := List (κ × α)

namespace AMap
variable {κ α : Type} [DecidableEq κ]

/-- `IndexMap::get`. -/
def get? : AMap κ α → κ → Option α
  | [], _ => none
  | (k, v) :: m, q => if k = q then some v else get? m q

/-- `IndexMap::insert`: an existing key keeps its position and gets the new value. -/
def insert : AMap κ α → κ → α → AMap κ α
  | [], k, v => [(k, v)]
  | (k', v') :: m, k, v => if k' = k then (k', v) :: m else (k', v') :: insert m k v

/-- `IndexMap::remove` (as far as the remaining contents are concerned). -/
def erase (m : AMap κ α) (k : κ) : AMap κ α := m.filter (fun e => e.1 ≠ k)

/-- `IndexMap::keys`. -/
def keys (m : AMap κ α) : List κ := m.map (·.1)

/-- The keys are distinct: what every `IndexMap` guarantees. -/
def WF (m : AMap κ α) : Prop := (keys m).Nodup

@[simp] theorem get?_nil (k : κ) : get? ([] : AMap κ α) k = none := rfl

theorem get?_insert_self (m : AMap κ α) (k : κ) (v : α) : get? (insert m k v) k = some v := by
  induction m with
  | nil => simp [insert, get?]
  | cons e m ih =>
    obtain ⟨k', v'⟩ := e
    by_cases h : k' = k <;> simp [insert, get?, h, ih]

theorem get?_insert_of_ne (m : AMap κ α) {k q : κ} (v : α) (h : k ≠ q) :
    get? (insert m k v) q = get? m q := by
  induction m with
  | nil => simp [insert, get?, h]
  | cons e m ih =>
    obtain ⟨k', v'⟩ := e
    by_cases h' : k' = k
    · subst h'; simp [insert, get?, h]
    · simp [insert, get?, h', ih]

theorem get?_insert (m : AMap κ α) (k q : κ) (v : α) :
    get? (insert m k v) q = if k = q then some v else get? m q := by
  by_cases h : k = q
  · subst h; simp [get?_insert_self]
  · simp [h, get?_insert_of_ne m v h]

theorem get?_erase (m : AMap κ α) (k q : κ) :
    get? (erase m k) q = if k = q then none else get? m q := by
  induction m with
  | nil => simp [erase]
  | cons e m ih =>
    obtain ⟨k', v'⟩ := e
    simp only [erase, List.filter_cons] at ih ⊢
    by_cases h : k' = k
    · subst h
      by_cases h2 : k' = q
      · subst h2; simpa using ih
      · simpa [get?, h2] using ih
    · by_cases h2 : k' = q
      · subst h2
        have : ¬ k = k' := fun e => h e.symm
        simp [h, get?, this]
      · simpa [h, get?, h2] using ih

theorem get?_eq_none_iff (m : AMap κ α) (k : κ) : get? m k = none ↔ k ∉ keys m := by
  induction m with
  | nil => simp [keys]
  | cons e m ih =>
    obtain ⟨k', v'⟩ := e
    by_cases h : k' = k
    · subst h; simp [get?, keys]
    · have h' : ¬ k = k' := fun e => h e.symm
      simp only [keys] at ih
      simp [get?, keys, h, h', ih]

theorem mem_keys_iff (m : AMap κ α) (k : κ) : k ∈ keys m ↔ ∃ v, get? m k = some v := by
  have := get?_eq_none_iff m k
  cases hg : get? m k with
  | none => simp [this.1 hg]
  | some v =>
    constructor
    · intro _; exact ⟨v, rfl⟩
    · intro _
      refine Classical.byContradiction fun hn => ?_
      rw [this.2 hn] at hg; cases hg

theorem get?_mem {m : AMap κ α} {k : κ} {v : α} (h : get? m k = some v) : (k, v) ∈ m := by
  induction m with
  | nil => simp at h
  | cons e m ih =>
    obtain ⟨k', v'⟩ := e
    by_cases h' : k' = k
    · simp [get?, h'] at h; subst h; subst h'; simp
    · simp [get?, h'] at h; exact List.mem_cons_of_mem _ (ih h)

theorem mem_get? {m : AMap κ α} {k : κ} {v : α} (hwf : WF m) (h : (k, v) ∈ m) :
    get? m k = some v := by
  induction m with
  | nil => simp at h
  | cons e m ih =>
    obtain ⟨k', v'⟩ := e
    simp only [WF, keys, List.map_cons, List.nodup_cons] at hwf
    rcases List.mem_cons.1 h with h | h
    · cases h; simp [get?]
    · have hne : k' ≠ k := by
        rintro rfl; exact hwf.1 (List.mem_map.2 ⟨_, h, rfl⟩)
      simp [get?, hne, ih hwf.2 h]

theorem keys_insert (m : AMap κ α) (k : κ) (v : α) :
    keys (insert m k v) = if k ∈ keys m then keys m else keys m ++ [k] := by
  induction m with
  | nil => simp [insert, keys]
  | cons e m ih =>
    obtain ⟨k', v'⟩ := e
    by_cases h : k' = k
    · subst h; simp [insert, keys]
    · have h' : ¬ k = k' := fun e => h e.symm
      simp only [keys] at ih
      by_cases hk : k ∈ m.map (·.1)
      · simp [insert, h, keys, ih, hk]
      · simp [insert, h, h', keys, ih, hk]

theorem mem_keys_insert (m : AMap κ α) (k q : κ) (v : α) :
    q ∈ keys (insert m k v) ↔ q = k ∨ q ∈ keys m := by
  rw [keys_insert]
  split
  · constructor
    · intro h; exact Or.inr h
    · rintro (rfl | h) <;> assumption
  · simp [or_comm]

theorem insert_wf {m : AMap κ α} (h : WF m) (k : κ) (v : α) : WF (insert m k v) := by
  unfold WF; rw [keys_insert]; split
  · exact h
  · rename_i hk
    rw [List.nodup_append]
    refine ⟨h, by simp, ?_⟩
    intro a ha b hb
    simp at hb; subst hb
    rintro rfl; exact hk ha

theorem erase_wf {m : AMap κ α} (h : WF m) (k : κ) : WF (erase m k) := by
  unfold WF keys erase at *
  exact (List.Sublist.map _ List.filter_sublist).nodup h

omit [DecidableEq κ] in
theorem nil_wf : WF ([] : AMap κ α) := by simp [WF, keys]

end AMap
end Verif
