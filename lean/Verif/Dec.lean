import Std.Data.String.ToNat
import Verif.Str

/-!
# Decimal notation

`format!("{}", n)` for an unsigned integer, and lemmas about it.
-/

set_option autoImplicit false

namespace Verif

/-- Rust's `Display` for unsigned integers. -/
def dec (n : Nat) : String := Nat.repr n

theorem dec_inj {m n : Nat} (h : dec m = dec n) : m = n := Nat.repr_injective h

theorem dec_toList (n : Nat) : (dec n).toList = Nat.toDigits 10 n := Nat.toList_repr

theorem dec_digit (n : Nat) : ∀ c ∈ (dec n).toList, c.isDigit = true := by
  intro c hc
  rw [dec_toList] at hc
  exact Nat.isDigit_of_mem_toDigits (by omega) (by omega) hc

theorem dec_ne_nil (n : Nat) : (dec n).toList ≠ [] := by
  rw [dec_toList]; exact Nat.toDigits_ne_nil

/-- A non-empty beginning of a positive number's digits is again the digits of a positive number. -/
theorem prefix_dec (n : Nat) (hn : 0 < n) (l : List Char) (hl : l ≠ []) (hp : l <+: (dec n).toList) :
    ∃ k, 0 < k ∧ l = (dec k).toList := by
  simp only [dec_toList] at *
  induction n using Nat.strongRecOn with
  | ind n ih =>
    by_cases h : n < 10
    · rw [Nat.toDigits_of_lt_base h] at hp
      refine ⟨n, hn, ?_⟩
      rw [Nat.toDigits_of_lt_base h]
      rcases l with _ | ⟨c, r⟩
      · exact absurd rfl hl
      · obtain ⟨t, ht⟩ := hp
        simp at ht
        simp [ht.1, ht.2.1]
    · have hge : 10 ≤ n := by omega
      have e := Nat.toDigits_of_base_le (b := 10) (n := n) (by omega) hge
      by_cases hfull : l = Nat.toDigits 10 n
      · exact ⟨n, hn, hfull⟩
      · refine ih (n / 10) (by omega) (by omega) ?_
        rw [e] at hp hfull
        rcases List.prefix_concat_iff.1 hp with h1 | h1
        · exact absurd h1 hfull
        · exact h1

/-- Whether a string ends in a digit. -/
theorem endsDigit_append_dec (s : String) (n : Nat) :
    ∃ c, (s ++ dec n).toList.getLast? = some c ∧ c.isDigit = true := by
  cases h : (dec n).toList.getLast? with
  | none => exact absurd (List.getLast?_eq_none_iff.1 h) (dec_ne_nil n)
  | some c =>
    refine ⟨c, by simp [List.getLast?_append, h], dec_digit n c (List.mem_of_getLast? h)⟩

/-- Splitting off the digits at the end is unique, when what stands before them does not end in a
digit. -/
theorem append_digits_unique {a b d e : List Char}
    (ha : ∀ c, a.getLast? = some c → c.isDigit = false)
    (hb : ∀ c, b.getLast? = some c → c.isDigit = false)
    (hd : ∀ c ∈ d, c.isDigit = true) (he : ∀ c ∈ e, c.isDigit = true)
    (h : a ++ d = b ++ e) : a = b ∧ d = e := by
  rcases List.append_eq_append_iff.1 h with ⟨t, h1, h2⟩ | ⟨t, h1, h2⟩
  · rcases List.eq_nil_or_concat t with rfl | ⟨t', x, rfl⟩
    · simp_all
    · exfalso
      have h3 := hb x (by simp [h1])
      have h4 := hd x (by simp [h2])
      simp [h3] at h4
  · rcases List.eq_nil_or_concat t with rfl | ⟨t', x, rfl⟩
    · simp_all
    · exfalso
      have h3 := ha x (by simp [h1])
      have h4 := he x (by simp [h2])
      simp [h3] at h4

end Verif
