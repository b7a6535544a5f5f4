import Verif.Core
import Verif.Str

/-!
# Qualified names: construction and segments

The part of engine/src/types.rs which does not need the database of known types.
-/

set_option autoImplicit false

namespace Verif

/-- The loop shared by `from_segments` (engine/src/types.rs:109-119) and `new_from_cpp_name`
(127-140): all but the last segment go to the namespace. `none` is the `unreachable!()` for an empty
iterator. -/
def QName.fromSegs : List String → Option QName
  | [] => none
  | [a] => some ⟨[], a⟩
  | a :: b :: r => (QName.fromSegs (b :: r)).map fun q => ⟨a :: q.ns, q.name⟩

/-- `QualifiedName::from_type_path`: engine/src/types.rs:95-107. The argument is the list of
segments of the path; a leading `root` or `output` is dropped. `none` is a panic: an empty path
(`unwrap` of `None`) or a path which is just `root` or `output` (`unreachable!`). -/
def QName.ofTypePath : List String → Option QName
  | [] => none
  | s :: r => if s = "root" ∨ s = "output" then QName.fromSegs r else QName.fromSegs (s :: r)

/-- `QualifiedName::new_from_cpp_name`: engine/src/types.rs:127-140. Empty segments are skipped,
except the last one. `str::split` always yields at least one segment, so the `unreachable!()` is
never reached (`ofCppName_total` below shows the `getD` is never used). -/
def QName.ofCppSegs : List String → Option QName
  | [] => none
  | [a] => some ⟨[], a⟩
  | a :: b :: r => (QName.ofCppSegs (b :: r)).map fun q =>
      if a = "" then q else ⟨a :: q.ns, q.name⟩

/-- `QualifiedName::new_from_cpp_name` on strings: engine/src/types.rs:127-140. -/
def QName.ofCppName (s : String) : QName :=
  (QName.ofCppSegs ((splitCC s.toList).map String.ofList)).getD ⟨[], s⟩

/-- `QualifiedName::segment_iter`, `get_root_path_idents`: engine/src/types.rs:172-177,213-216. -/
def QName.segs (q : QName) : List String := q.ns ++ [q.name]

/-- `QualifiedName::get_bindgen_path_idents`: engine/src/types.rs:164-170. -/
def QName.bindgenPath (q : QName) : List String := "bindgen" :: "root" :: q.segs

/-- `Display for QualifiedName`: engine/src/types.rs:219-227. -/
def QName.display (q : QName) : String := q.ns.foldr (fun s acc => s ++ "::" ++ acc) q.name

/-- `Namespace::to_cpp_path`: engine/src/types.rs:59-61. -/
def nsToCppPath (ns : List String) : String := joinCC ns

/-- Every segment is usable as an identifier in a path: non-empty and without `:`. -/
def QName.wf (q : QName) : Bool := q.segs.all fun s => noColon s && s ≠ ""

theorem fromSegs_append (ns : List String) (n : String) :
    QName.fromSegs (ns ++ [n]) = some ⟨ns, n⟩ := by
  induction ns with
  | nil => rfl
  | cons a t ih =>
    cases t with
    | nil => rfl
    | cons b t => simp only [List.cons_append] at ih ⊢; simp [QName.fromSegs, ih]

theorem fromSegs_segs (q : QName) : QName.fromSegs q.segs = some q := fromSegs_append _ _

theorem fromSegs_some_iff (l : List String) (q : QName) :
    QName.fromSegs l = some q ↔ l = q.segs := by
  constructor
  · intro h
    rcases List.eq_nil_or_concat l with rfl | ⟨ns, n, rfl⟩
    · cases h
    · simp only [List.concat_eq_append] at h ⊢
      rw [fromSegs_append] at h; cases h; rfl
  · rintro rfl; exact fromSegs_segs q

theorem ofCppSegs_ne_none {l : List String} (h : l ≠ []) : QName.ofCppSegs l ≠ none := by
  induction l with
  | nil => exact absurd rfl h
  | cons a t ih =>
    cases t with
    | nil => simp [QName.ofCppSegs]
    | cons b t =>
      have := ih (by simp)
      simpa [QName.ofCppSegs] using this

theorem ofCppName_total (s : String) :
    QName.ofCppSegs ((splitCC s.toList).map String.ofList) = some (QName.ofCppName s) := by
  have h := ofCppSegs_ne_none (l := (splitCC s.toList).map String.ofList)
    (by simpa using splitCC_ne_nil s.toList)
  unfold QName.ofCppName
  cases hq : QName.ofCppSegs ((splitCC s.toList).map String.ofList) with
  | none => exact absurd hq h
  | some q => rfl

theorem ofCppSegs_segs (ns : List String) (n : String) (h : ∀ s ∈ ns, s ≠ "") :
    QName.ofCppSegs (ns ++ [n]) = some ⟨ns, n⟩ := by
  induction ns with
  | nil => rfl
  | cons a t ih =>
    have ih := ih (fun s hs => h s (by simp [hs]))
    have ha : a ≠ "" := h a (by simp)
    cases t with
    | nil => simp [QName.ofCppSegs, ha]
    | cons b t => simp only [List.cons_append] at ih ⊢; simp [QName.ofCppSegs, ih, ha]

end Verif
