/-!
# List relations used in several proofs
-/

set_option autoImplicit false

namespace Verif

/-- Two lists of the same length related elementwise. -/
inductive All2 {α β : Type} (R : α → β → Prop) : List α → List β → Prop
  | nil : All2 R [] []
  | cons {a b l m} (h : R a b) (t : All2 R l m) : All2 R (a :: l) (b :: m)

namespace All2
variable {α β γ : Type} {R : α → β → Prop}

theorem mono {R' : α → β → Prop} {l : List α} {m : List β} (h : All2 R l m)
    (hr : ∀ a b, a ∈ l → R a b → R' a b) : All2 R' l m := by
  induction h with
  | nil => exact .nil
  | cons h _ ih =>
    exact .cons (hr _ _ (by simp) h) (ih fun a b ha hab => hr a b (by simp [ha]) hab)

theorem trans {R' : β → γ → Prop} {l : List α} {m : List β} {n : List γ} (h : All2 R l m)
    (h' : All2 R' m n) : All2 (fun a c => ∃ b, R a b ∧ R' b c) l n := by
  induction h generalizing n with
  | nil => cases h'; exact .nil
  | cons h _ ih => cases h' with
    | cons h2 t2 => exact .cons ⟨_, h, h2⟩ (ih t2)

theorem left {l : List α} {m : List β} (h : All2 R l m) {a : α} (ha : a ∈ l) :
    ∃ b ∈ m, R a b := by
  induction h with
  | nil => cases ha
  | cons h _ ih =>
    rcases List.mem_cons.1 ha with rfl | ha
    · exact ⟨_, by simp, h⟩
    · obtain ⟨b, hb, hr⟩ := ih ha; exact ⟨b, by simp [hb], hr⟩

theorem right {l : List α} {m : List β} (h : All2 R l m) {b : β} (hb : b ∈ m) :
    ∃ a ∈ l, R a b := by
  induction h with
  | nil => cases hb
  | cons h _ ih =>
    rcases List.mem_cons.1 hb with rfl | hb
    · exact ⟨_, by simp, h⟩
    · obtain ⟨a, ha, hr⟩ := ih hb; exact ⟨a, by simp [ha], hr⟩

theorem refl {R : α → α → Prop} (l : List α) (h : ∀ a ∈ l, R a a) : All2 R l l := by
  induction l with
  | nil => exact .nil
  | cons a l ih => exact .cons (h a (by simp)) (ih fun b hb => h b (by simp [hb]))

theorem map_eq {δ : Type} {f : α → δ} {g : β → δ} {l : List α} {m : List β} (h : All2 R l m)
    (hr : ∀ a b, R a b → f a = g b) : l.map f = m.map g := by
  induction h with
  | nil => rfl
  | cons h _ ih => simp [hr _ _ h, ih]

theorem length {l : List α} {m : List β} (h : All2 R l m) : l.length = m.length := by
  induction h with
  | nil => rfl
  | cons h _ ih => simp [ih]

end All2
end Verif
