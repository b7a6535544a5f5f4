/-!
# String algorithms

Rust's `str` operations used by autocxx, written over `List Char` so that they can be reasoned
about. `String` is used as the type of identifiers everywhere.
-/

set_option autoImplicit false

namespace Verif

/-- Rust `str::split("::")` (used in engine/src/types.rs:128 and engine/src/known_types.rs:100):
leftmost, non-overlapping occurrences of the two-character separator. -/
def splitCC : List Char → List (List Char)
  | ':' :: ':' :: rest => [] :: splitCC rest
  | c :: rest =>
    match splitCC rest with
    | [] => [[c]]
    | h :: t => (c :: h) :: t
  | [] => [[]]

/-- `itertools::join("::")` / `Vec<String>::join("::")` (engine/src/types.rs:60,184-188). -/
def joinCC : List String → String
  | [] => ""
  | [a] => a
  | a :: b :: r => a ++ "::" ++ joinCC (b :: r)

/-- Rust `str::starts_with`. -/
def startsWith (s p : String) : Bool := p.toList.isPrefixOf s.toList

/-- Whether `p` occurs in `l` as a contiguous block. -/
def infixB (p : List Char) : List Char → Bool
  | [] => p.isEmpty
  | c :: t => p.isPrefixOf (c :: t) || infixB p t

/-- Rust `str::contains`. -/
def containsStr (s p : String) : Bool := infixB p.toList s.toList

/-- Rust `str::strip_prefix`. -/
def stripPrefixL (p : List Char) : List Char → Option (List Char)
  | l => if p.isPrefixOf l then some (l.drop p.length) else none

/-- Rust `str::strip_suffix`. -/
def stripSuffixL (p l : List Char) : Option (List Char) :=
  if p.isSuffixOf l then some (l.take (l.length - p.length)) else none

/-- Rust `str::strip_suffix` on strings. -/
def stripSuffix (s p : String) : Option String :=
  (stripSuffixL p.toList s.toList).map String.ofList

/-- Rust `str::strip_prefix` on strings. -/
def stripPrefix (s p : String) : Option String :=
  (stripPrefixL p.toList s.toList).map String.ofList

/-- A string which can be one segment of a path: it has no `:`. Every C++ or Rust identifier
satisfies this. -/
def noColon (s : String) : Bool := s.toList.all (· ≠ ':')

theorem splitCC_ne_nil (l : List Char) : splitCC l ≠ [] := by
  fun_cases splitCC l <;> simp_all

theorem infixB_iff (p l : List Char) : infixB p l = true ↔ p <:+: l := by
  induction l with
  | nil => simp [infixB]
  | cons c t ih =>
    simp only [infixB, Bool.or_eq_true, ih, List.infix_cons_iff, List.isPrefixOf_iff_prefix]

theorem containsStr_iff (s p : String) : containsStr s p = true ↔ p.toList <:+: s.toList :=
  infixB_iff _ _

theorem startsWith_iff (s p : String) : startsWith s p = true ↔ p.toList <+: s.toList := by
  simp [startsWith]

theorem startsWith_iff_append (s p : String) : startsWith s p = true ↔ ∃ r, s = p ++ r := by
  rw [startsWith_iff]
  constructor
  · rintro ⟨r, h⟩
    exact ⟨String.ofList r, by rw [← String.toList_inj]; simp [h]⟩
  · rintro ⟨r, rfl⟩
    exact ⟨r.toList, by simp⟩

theorem stripSuffix_append (s p : String) : stripSuffix (s ++ p) p = some s := by
  simp [stripSuffix, stripSuffixL]

theorem stripSuffix_eq_some {s p r : String} : stripSuffix s p = some r ↔ s = r ++ p := by
  constructor
  · intro h
    simp only [stripSuffix, stripSuffixL] at h
    split at h
    · rename_i hs
      rw [List.isSuffixOf_iff_suffix] at hs
      obtain ⟨t, ht⟩ := hs
      simp [← ht] at h
      rw [← String.toList_inj, ← ht, ← h]; simp
    · simp at h
  · rintro rfl; exact stripSuffix_append r p

theorem stripPrefix_append (p s : String) : stripPrefix (p ++ s) p = some s := by
  simp [stripPrefix, stripPrefixL]

theorem stripPrefix_eq_some {s p r : String} : stripPrefix s p = some r ↔ s = p ++ r := by
  constructor
  · intro h
    simp only [stripPrefix, stripPrefixL] at h
    split at h
    · rename_i hs
      rw [List.isPrefixOf_iff_prefix] at hs
      obtain ⟨t, ht⟩ := hs
      simp [← ht] at h
      rw [← String.toList_inj, ← ht, ← h]; simp
    · simp at h
  · rintro rfl; exact stripPrefix_append p r

theorem splitCC_noColon (l : List Char) (h : ∀ c ∈ l, c ≠ ':') : splitCC l = [l] := by
  induction l with
  | nil => simp [splitCC]
  | cons c t ih =>
    have hc : c ≠ ':' := h c (by simp)
    have ht := ih (fun x hx => h x (by simp [hx]))
    unfold splitCC
    split
    · rename_i heq; simp at heq; exact absurd heq.1 hc
    · rename_i heq; simp at heq; obtain ⟨rfl, rfl⟩ := heq; rw [ht]
    · rename_i heq; simp at heq

theorem splitCC_append (l r : List Char) (h : ∀ c ∈ l, c ≠ ':') :
    splitCC (l ++ ':' :: ':' :: r) = l :: splitCC r := by
  induction l with
  | nil => simp [splitCC]
  | cons c t ih =>
    have hc : c ≠ ':' := h c (by simp)
    have ht := ih (fun x hx => h x (by simp [hx]))
    rw [List.cons_append]
    conv => lhs; unfold splitCC
    split
    · rename_i heq; simp at heq; exact absurd heq.1 hc
    · rename_i heq; simp at heq; obtain ⟨rfl, rfl⟩ := heq; rw [ht]
    · rename_i heq; simp at heq

theorem noColon_iff (s : String) : noColon s = true ↔ ∀ c ∈ s.toList, c ≠ ':' := by
  simp [noColon]

/-- Splitting undoes joining for non-empty lists of colon-free segments. -/
theorem splitCC_joinCC (segs : List String) (hne : segs ≠ [])
    (h : ∀ s ∈ segs, noColon s = true) :
    splitCC (joinCC segs).toList = segs.map String.toList := by
  induction segs with
  | nil => exact absurd rfl hne
  | cons a r ih =>
    have ha := (noColon_iff a).1 (h a (by simp))
    cases r with
    | nil => simp [joinCC, splitCC_noColon _ ha]
    | cons b r =>
      have ih := ih (by simp) (fun s hs => h s (by simp [hs]))
      have : (joinCC (a :: b :: r)).toList = a.toList ++ ':' :: ':' :: (joinCC (b :: r)).toList := by
        simp [joinCC]
      rw [this, splitCC_append _ _ ha, ih]
      simp

end Verif
