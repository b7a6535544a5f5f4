import Verif.Names
import Verif.KnownTypesProps

/-!
# C19, C20, C42, C49 and the identifier check of C07

Specifications are the plain predicates in the statements: `QName.wf` (every segment is non-empty and
has no colon), `knownGet` (characterised by C41), and substrings.
-/

set_option autoImplicit false

namespace Verif

/-! ## C19: qualified names survive notation changes -/

theorem wf_ns {q : QName} (h : q.wf = true) : ∀ s ∈ q.ns, s ≠ "" := by
  intro s hs
  simp only [QName.wf, QName.segs, List.all_eq_true] at h
  have := h s (by simp [hs])
  simp at this; exact this.2

theorem wf_noColon {q : QName} (h : q.wf = true) : ∀ s ∈ q.segs, noColon s = true := by
  intro s hs
  simp only [QName.wf, List.all_eq_true] at h
  have := h s hs
  simp at this; exact this.1

theorem map_ofList_toList (l : List String) : (l.map String.toList).map String.ofList = l := by
  induction l with
  | nil => rfl
  | cons a t ih => simp

theorem segs_ne_nil (q : QName) : q.segs ≠ [] := by simp [QName.segs]

theorem ofCppName_joinCC (q : QName) (h : q.wf = true) : QName.ofCppName (joinCC q.segs) = q := by
  unfold QName.ofCppName
  rw [splitCC_joinCC _ (segs_ne_nil q) (wf_noColon h), map_ofList_toList]
  rw [QName.segs, ofCppSegs_segs _ _ (wf_ns h)]
  rfl

/-- **C19 (C++ notation, user names)**: writing a name that is not built in and reading it back
gives the same name. -/
theorem qname_cpp_roundtrip (q : QName) (h : q.wf = true) (hk : knownGet q = none) :
    QName.ofCppName q.toCppName = q := by
  rw [QName.toCppName, specialCppName, hk]
  exact ofCppName_joinCC q h

/-- **C19 (C++ notation, built-in names)**: writing any name and reading it back gives a name of the
same built-in type, if it was one, and otherwise the same name. -/
theorem qname_cpp_roundtrip_known (q : QName) (h : q.wf = true) :
    knownGet (QName.ofCppName q.toCppName) = knownGet q ∧
    (knownGet q = none → QName.ofCppName q.toCppName = q) := by
  refine ⟨?_, qname_cpp_roundtrip q h⟩
  cases hk : knownGet q with
  | none => rw [qname_cpp_roundtrip q h hk, hk]
  | some d =>
    rw [QName.toCppName, specialCppName, hk]
    exact (known_get_iff _ d).2 ⟨((known_get_iff q d).1 hk).1, d.cppName,
      by simp [TypeDetails.spellings], rfl⟩

/-- A built-in name may come back as another spelling of itself: `i8` is written `int8_t`. -/
theorem qname_cpp_roundtrip_exact_false :
    ¬ ∀ q : QName, q.wf = true → QName.ofCppName q.toCppName = q := by
  intro h
  have h1 := h ⟨[], "i8"⟩ (by decide)
  have h2 : QName.toCppName ⟨[], "i8"⟩ = "int8_t" := by
    rw [QName.toCppName, specialCppName, knownGet_eq_lit]; decide +kernel
  rw [h2] at h1
  exact absurd h1 (by decide +kernel)

/-- **C19 (different names have different notations)**: two names are written the same in C++ exactly
when they are equal or are spellings of one built-in type. In particular no user-defined name is ever
written like a built-in one. -/
theorem qname_cpp_eq_iff (q r : QName) (hq : q.wf = true) (hr : r.wf = true) :
    q.toCppName = r.toCppName ↔ q = r ∨ ∃ d, knownGet q = some d ∧ knownGet r = some d := by
  constructor
  · intro h
    have a := qname_cpp_roundtrip_known q hq
    have b := qname_cpp_roundtrip_known r hr
    rw [h] at a
    have e : knownGet q = knownGet r := a.1.symm.trans b.1
    cases hk : knownGet q with
    | none => exact Or.inl ((a.2 hk).symm.trans (b.2 (e ▸ hk)))
    | some d => exact Or.inr ⟨d, rfl, e ▸ hk⟩
  · rintro (rfl | ⟨d, h1, h2⟩)
    · rfl
    · rw [QName.toCppName, QName.toCppName, specialCppName, specialCppName, h1, h2]
      rfl

example : (⟨["a", "b"], "C"⟩ : QName).wf = true ∧ knownGet ⟨["a", "b"], "C"⟩ = none ∧
    (⟨["a", "b"], "C"⟩ : QName).toCppName = "a::b::C" := by
  have h : knownGet ⟨["a", "b"], "C"⟩ = none := by rw [knownGet_eq_lit]; decide +kernel
  exact ⟨by decide, h, by rw [QName.toCppName, specialCppName, h]; decide⟩

set_option maxRecDepth 10000 in
theorem known_type_path_table : ∀ d ∈ knownTypesLit.byRsName.map (·.2),
    QName.ofTypePath d.toTypePath = some d.toTypename ∧ knownTypesLit.get d.toTypename = some d := by
  decide +kernel

/-- **C19 (Rust notation)**: the Rust path of a name leads back to the same name, or for a built-in
name to the Rust spelling of the same built-in type. It never panics. -/
theorem qname_type_path_roundtrip (q : QName) :
    (knownGet q = none → QName.ofTypePath q.toTypePath = some q) ∧
    (∀ d, knownGet q = some d →
      ∃ r, QName.ofTypePath q.toTypePath = some r ∧ knownGet r = some d) := by
  constructor
  · intro hk
    rw [QName.toTypePath, considerSubstitution, hk]
    simp only [Option.map_none, QName.ofTypePath, or_true, if_true]
    exact fromSegs_segs q
  · intro d hk
    have hd := ((known_get_iff q d).1 hk).1
    rw [knownTypeTable_eq_lit] at hd
    obtain ⟨h1, h2⟩ := known_type_path_table d hd
    rw [QName.toTypePath, considerSubstitution, hk]
    exact ⟨_, h1, by rw [knownGet_eq_lit]; exact h2⟩

/-- **C19 (bindgen paths)**: the path below `bindgen` that autocxx writes for a name is read back as
that name, whatever its segments are. -/
theorem qname_bindgen_path_roundtrip (q : QName) :
    QName.ofTypePath (q.bindgenPath.drop 1) = some q := by
  simp [QName.bindgenPath, QName.ofTypePath, fromSegs_segs]

/-- Reading a path panics exactly for the empty path and for the bare words `root` and `output`. -/
theorem qname_type_path_panic_iff (l : List String) :
    QName.ofTypePath l = none ↔ l = [] ∨ l = ["root"] ∨ l = ["output"] := by
  have key : ∀ l : List String, QName.fromSegs l = none ↔ l = [] := by
    intro l
    rcases List.eq_nil_or_concat l with rfl | ⟨ns, n, rfl⟩
    · simp [QName.fromSegs]
    · simp only [List.concat_eq_append]; rw [fromSegs_append]; simp
  cases l with
  | nil => simp [QName.ofTypePath]
  | cons s r =>
    simp only [QName.ofTypePath]
    split
    · rename_i h
      rw [key]
      rcases h with rfl | rfl <;> simp
    · rename_i h
      rw [key]
      have : s ≠ "root" ∧ s ≠ "output" := by
        constructor <;> (rintro rfl; simp at h)
      simp [this.1, this.2]

/-- The displayed form is the plain `::`-joined list of segments. -/
theorem qname_display_eq (q : QName) : q.display = joinCC q.segs := by
  obtain ⟨ns, n⟩ := q
  simp only [QName.display, QName.segs]
  induction ns with
  | nil => rfl
  | cons a t ih =>
    rw [List.foldr_cons, ih]
    cases t with
    | nil => simp [joinCC]
    | cons b t => simp [joinCC]

/-- **C19 (display)**: names with different segments are displayed differently. -/
theorem qname_display_injective (q r : QName) (hq : q.wf = true) (hr : r.wf = true)
    (h : q.display = r.display) : q = r := by
  rw [qname_display_eq, qname_display_eq] at h
  rw [← ofCppName_joinCC q hq, h, ofCppName_joinCC r hr]

/-! ## C07: which identifiers cxx can accept -/

/-- An identifier cxx accepts: lexically an identifier, not a Rust keyword, no double underscore
unless it is one of autocxx's bindgen markers, and not one of bindgen's invented type names. -/
def CxxAcceptable (s : String) : Prop :=
  isIdentText s = true ∧ s ∉ rustReserved ∧
  (("__".toList <:+: s.toList) → ∃ r, s = "__bindgen_marker" ++ r) ∧
  ¬ ∃ r, s = "_bindgen_ty_" ++ r

theorem startsWith_trans_dunder {s p : String} (hp : "__".toList <:+: p.toList)
    (h : startsWith s p = true) : "__".toList <:+: s.toList := by
  rw [startsWith_iff] at h
  exact hp.trans h.isInfix

theorem not_startsWith_both {s p q : String} (hp : startsWith s p = true) (hq : startsWith s q = true)
    (hne : ¬ (p.toList <+: q.toList ∨ q.toList <+: p.toList)) : False := by
  rw [startsWith_iff] at hp hq
  exact hne (List.prefix_or_prefix_of_prefix hp hq)

/-- **C07 (identifier check)**: the check accepts exactly the acceptable identifiers. -/
theorem validate_ok_iff (s : String) : validateIdentOkForCxx s = .ok ↔ CxxAcceptable s := by
  unfold validateIdentOkForCxx validateStrOkForRust CxxAcceptable
  by_cases hi : isIdentText s = true
  · by_cases hr : s ∈ rustReserved
    · simp [hi, hr]
    · simp only [hi, hr, Bool.not_true, Bool.false_eq_true, if_false, true_and, not_false_eq_true]
      have hd := containsStr_iff s "__"
      have hm := startsWith_iff_append s "__bindgen_marker"
      have hb := startsWith_iff_append s "_bindgen_ty_"
      rw [← hd, ← hm, ← hb]
      have h1 : startsWith s "__BindgenBitfieldUnit" = true → containsStr s "__" = true ∧
          startsWith s "__bindgen_marker" = false := by
        intro h
        refine ⟨hd.2 (startsWith_trans_dunder (by decide) h), ?_⟩
        cases hx : startsWith s "__bindgen_marker" with
        | false => rfl
        | true => exact (not_startsWith_both h hx (by decide)).elim
      have h2 : startsWith s "__BindgenUnionField" = true → containsStr s "__" = true ∧
          startsWith s "__bindgen_marker" = false := by
        intro h
        refine ⟨hd.2 (startsWith_trans_dunder (by decide) h), ?_⟩
        cases hx : startsWith s "__bindgen_marker" with
        | false => rfl
        | true => exact (not_startsWith_both h hx (by decide)).elim
      revert h1 h2
      generalize startsWith s "__BindgenBitfieldUnit" = a
      generalize startsWith s "__BindgenUnionField" = b
      generalize containsStr s "__" = c
      generalize startsWith s "__bindgen_marker" = d
      generalize startsWith s "_bindgen_ty_" = e
      cases a <;> cases b <;> cases c <;> cases d <;> cases e <;> simp
  · simp [hi]

/-- **C07 (identifier check, other outcomes)**: the check panics exactly on text that is no
identifier, and blames a reserved word exactly on reserved words. -/
theorem validate_panic_iff (s : String) : validateIdentOkForCxx s = .panic ↔ isIdentText s = false := by
  unfold validateIdentOkForCxx validateStrOkForRust
  cases hi : isIdentText s
  · simp
  · simp only [Bool.not_true, Bool.false_eq_true, if_false]
    split <;> rename_i h <;> revert h <;> (repeat' split) <;> simp

theorem validate_reserved_iff (s w : String) :
    validateIdentOkForCxx s = .bad (.reservedName w) ↔
      isIdentText s = true ∧ s ∈ rustReserved ∧ w = s := by
  unfold validateIdentOkForCxx validateStrOkForRust
  cases hi : isIdentText s
  · simp
  · simp only [Bool.not_true, Bool.false_eq_true, if_false, true_and]
    by_cases hr : s ∈ rustReserved
    · simp [hr, eq_comm]
    · simp only [hr, if_false, false_and, iff_false]
      repeat' split
      all_goals simp

/-- The two specialised diagnostics name what they should. -/
theorem validate_specialised (s : String) (hi : isIdentText s = true) (hr : s ∉ rustReserved) :
    (validateIdentOkForCxx s = .bad .bitfield ↔ ∃ r, s = "__BindgenBitfieldUnit" ++ r) ∧
    (validateIdentOkForCxx s = .bad .union ↔ ∃ r, s = "__BindgenUnionField" ++ r) := by
  rw [← startsWith_iff_append, ← startsWith_iff_append]
  unfold validateIdentOkForCxx validateStrOkForRust
  simp only [hi, hr, Bool.not_true, Bool.false_eq_true, if_false]
  have hx : startsWith s "__BindgenBitfieldUnit" = true → startsWith s "__BindgenUnionField" = true →
      False := fun a b => not_startsWith_both a b (by decide)
  revert hx
  generalize startsWith s "__BindgenBitfieldUnit" = a
  generalize startsWith s "__BindgenUnionField" = b
  generalize containsStr s "__" = c
  generalize startsWith s "__bindgen_marker" = d
  generalize startsWith s "_bindgen_ty_" = e
  cases a <;> cases b <;> cases c <;> cases d <;> cases e <;> simp

example : CxxAcceptable "foo_bar" ∧ ¬ CxxAcceptable "foo__bar" ∧ ¬ CxxAcceptable "fn" ∧
    CxxAcceptable "__bindgen_marker_x" := by
  simp only [← validate_ok_iff]; decide +kernel

/-! ## C20: subclass names -/

/-- **C20 (holder is reversible)**: from the holder's name the subclass is found again. -/
theorem subclass_holder_roundtrip (id : Ident) :
    subclassFromHolder (subclassName id).holder = some (subclassName id) := by
  simp [subclassFromHolder, ApiName.holder, subclassName, stripSuffix_append]

/-- Reading a holder name back panics exactly when the name does not end in `Holder`. -/
theorem subclass_from_holder_panic_iff (id : Ident) :
    subclassFromHolder id = none ↔ ¬ ∃ r, id = r ++ "Holder" := by
  unfold subclassFromHolder
  rw [Option.map_eq_none_iff]
  constructor
  · rintro h ⟨r, rfl⟩; rw [stripSuffix_append] at h; cases h
  · intro h
    cases hs : stripSuffix id "Holder" with
    | none => rfl
    | some r => exact absurd ⟨r, stripSuffix_eq_some.1 hs⟩ h

theorem append_ne_of_last {a b p q : String} (h : p.toList.getLast? ≠ q.toList.getLast?)
    (hp : p.toList ≠ []) (hq : q.toList ≠ []) : a ++ p ≠ b ++ q := by
  intro e
  have := congrArg (fun s => s.toList.getLast?) e
  simp only [String.toList_append, List.getLast?_append] at this
  apply h
  cases hx : p.toList.getLast? with
  | none => simp at hx; exact absurd (by simp [hx]) hp
  | some x =>
    cases hy : q.toList.getLast? with
    | none => simp at hy; exact absurd (by simp [hy]) hq
    | some y => simpa [hx, hy] using this

/-- **C20 (distinctness)**: two subclasses share a holder name, or a peer name, only if they have
the same name; a holder name is never a peer name. -/
theorem subclass_names_distinct (a b : Ident) :
    ((subclassName a).holder = (subclassName b).holder ↔ a = b) ∧
    ((subclassName a).cppPeer = (subclassName b).cppPeer ↔ a = b) ∧
    (subclassName a).holder ≠ (subclassName b).cppPeer.name ∧
    (subclassName a).holder ≠ a ∧ (subclassName a).cppPeer.name ≠ a ∧
    ((subclassName a).removeOwnership = (subclassName b).removeOwnership ↔ a = b) ∧
    ((subclassName a).cppRemoveOwnership = (subclassName b).cppRemoveOwnership ↔ a = b) := by
  refine ⟨?_, ?_, ?_, ?_, ?_, ?_, ?_⟩
  · simp [ApiName.holder, subclassName]
  · simp [ApiName.cppPeer, subclassName]
  · exact append_ne_of_last (by decide) (by decide) (by decide)
  · intro h
    have := congrArg (fun s => s.toList.length) h
    simp [ApiName.holder, subclassName] at this
  · intro h
    have := congrArg (fun s => s.toList.length) h
    simp [ApiName.cppPeer, subclassName] at this
  · simp [ApiName.removeOwnership, subclassName]
  · simp [ApiName.cppRemoveOwnership, subclassName]

/-- A subclass named like another one's peer clashes with it, and so do their ownership-removal
functions: `A`'s C++ peer is `ACpp`. Nothing in the naming scheme prevents this. -/
theorem subclass_peer_clash_witness :
    (subclassName "A").cppPeer = (subclassName "ACpp").name ∧
    (subclassName "A").cppRemoveOwnership = (subclassName "ACpp").removeOwnership := by decide

/-! ## C42: error markers -/

set_option maxRecDepth 10000 in
theorem known_root_no_underscore_prefix : ∀ n ∈ knownTypesLit.allNames, n.ns = [] →
    ∀ m ∈ knownTypesLit.allNames, m.ns = [] → startsWith m.name (n.name ++ "_") = false := by
  decide +kernel

theorem known_underscore (id rest : Ident) (h : conflictsWithBuiltInType ⟨[], id⟩ = true) :
    conflictsWithBuiltInType ⟨[], id ++ "_" ++ rest⟩ = false := by
  unfold conflictsWithBuiltInType at *
  rw [knownGet_eq_lit] at *
  obtain ⟨d, hd⟩ := Option.isSome_iff_exists.1 h
  cases hg : knownTypesLit.get ⟨[], id ++ "_" ++ rest⟩ with
  | none => rfl
  | some e =>
    have := known_root_no_underscore_prefix _ (known_get_mem _ hd) rfl _ (known_get_mem _ hg) rfl
    have h2 : startsWith (id ++ "_" ++ rest) (id ++ "_") = true :=
      (startsWith_iff_append _ _).2 ⟨rest, rfl⟩
    simp only at this
    rw [h2] at this; cases this

/-- The identifiers an error context puts into the generated code. -/
def ErrorContext.idents : ErrorContext → List Ident
  | .item i | .sanitizedItem i => [i]
  | .method s m => [s, m]

theorem sanitize_ok (id s : Ident) (h : sanitizeErrorIdent id = some s) :
    conflictsWithBuiltInType ⟨[], s⟩ = false := by
  unfold sanitizeErrorIdent at h
  split at h
  · rename_i hc
    cases h
    have := known_underscore id "autocxx_error" hc
    simpa [String.append_assoc] using this
  · cases h

theorem sanitize_none (id : Ident) :
    sanitizeErrorIdent id = none ↔ conflictsWithBuiltInType ⟨[], id⟩ = false := by
  unfold sanitizeErrorIdent
  split <;> simp_all

/-- **C42 (no clash with built-in names)**: no identifier of an error context is a built-in name, for
items and for methods of any type. -/
theorem error_context_no_builtin :
    (∀ id, ∀ i ∈ (ErrorContext.newForItem id).idents, conflictsWithBuiltInType ⟨[], i⟩ = false) ∧
    (∀ s m, ∀ i ∈ (ErrorContext.newForMethod s m).idents,
      conflictsWithBuiltInType ⟨[], i⟩ = false) := by
  constructor
  · intro id i hi
    unfold ErrorContext.newForItem at hi
    cases hs : sanitizeErrorIdent id with
    | none =>
      rw [hs] at hi; simp [ErrorContext.idents] at hi; subst hi
      exact (sanitize_none _).1 hs
    | some s =>
      rw [hs] at hi; simp [ErrorContext.idents] at hi; subst hi
      exact sanitize_ok _ _ hs
  · intro s m i hi
    unfold ErrorContext.newForMethod at hi
    cases hs : sanitizeErrorIdent s with
    | none =>
      rw [hs] at hi; simp [ErrorContext.idents] at hi
      rcases hi with rfl | rfl
      · exact (sanitize_none _).1 hs
      · cases hm : sanitizeErrorIdent m with
        | none => simpa using (sanitize_none _).1 hm
        | some x => simpa using sanitize_ok _ _ hm
    | some x =>
      rw [hs] at hi; simp [ErrorContext.idents] at hi; subst hi
      refine known_underscore s m ?_
      cases hc : conflictsWithBuiltInType ⟨[], s⟩ with
      | true => rfl
      | false => rw [(sanitize_none s).2 hc] at hs; cases hs

/-- **C42 (kind of context kept when possible)**: an item whose name clashes with nothing keeps its
name and kind; a method keeps its type and kind unless the type's name clashes, and keeps its own
name unless that clashes. -/
theorem error_context_kept :
    (∀ id, conflictsWithBuiltInType ⟨[], id⟩ = false → ErrorContext.newForItem id = .item id) ∧
    (∀ id, conflictsWithBuiltInType ⟨[], id⟩ = true →
      ErrorContext.newForItem id = .sanitizedItem (id ++ "_autocxx_error")) ∧
    (∀ s m, conflictsWithBuiltInType ⟨[], s⟩ = false → conflictsWithBuiltInType ⟨[], m⟩ = false →
      ErrorContext.newForMethod s m = .method s m) ∧
    (∀ s m, conflictsWithBuiltInType ⟨[], s⟩ = false → conflictsWithBuiltInType ⟨[], m⟩ = true →
      ErrorContext.newForMethod s m = .method s (m ++ "_autocxx_error")) ∧
    (∀ s m, conflictsWithBuiltInType ⟨[], s⟩ = true →
      ErrorContext.newForMethod s m = .sanitizedItem (s ++ "_" ++ m)) := by
  refine ⟨?_, ?_, ?_, ?_, ?_⟩
  · intro id h; simp [ErrorContext.newForItem, sanitizeErrorIdent, h]
  · intro id h; simp [ErrorContext.newForItem, sanitizeErrorIdent, h]
  · intro s m h1 h2; simp [ErrorContext.newForMethod, sanitizeErrorIdent, h1, h2]
  · intro s m h1 h2; simp [ErrorContext.newForMethod, sanitizeErrorIdent, h1, h2]
  · intro s m h; simp [ErrorContext.newForMethod, sanitizeErrorIdent, h]

/-- **C42 (idempotent)**: an identifier that has been sanitized, or needed no sanitizing, is left
alone by further sanitizing. -/
theorem sanitize_idempotent (id : Ident) :
    sanitizeErrorIdent ((sanitizeErrorIdent id).getD id) = none := by
  rw [sanitize_none]
  cases h : sanitizeErrorIdent id with
  | none => simpa using (sanitize_none _).1 h
  | some s => simpa using sanitize_ok _ _ h

example : ErrorContext.newForMethod "Foo" "u8" = .method "Foo" "u8_autocxx_error" := by
  have h1 : conflictsWithBuiltInType ⟨[], "Foo"⟩ = false := by
    unfold conflictsWithBuiltInType; rw [knownGet_eq_lit]; decide +kernel
  have h2 : conflictsWithBuiltInType ⟨[], "u8"⟩ = true := by
    unfold conflictsWithBuiltInType; rw [knownGet_eq_lit]; decide +kernel
  have := error_context_kept.2.2.2.1 "Foo" "u8" h1 h2
  simpa using this

/-! ## C49: the bindgen suffix -/

theorem splitLast_none (p l : List Char) (h : ¬ p <:+: l) : splitLast p l = none := by
  induction l with
  | nil =>
    cases p with
    | nil => exact absurd (List.nil_infix) h
    | cons c p => simp [splitLast]
  | cons c t ih =>
    have ht : ¬ p <:+: t := fun hx => h (hx.trans (List.suffix_cons c t).isInfix)
    have hp : ¬ p <+: c :: t := fun hx => h hx.isInfix
    simp [splitLast, ih ht, hp]

theorem splitLast_append (p pre post : List Char)
    (h : splitLast p post = none)
    (hno : ∀ n, 0 < n → n ≤ p.length → ¬ p <+: (p ++ post).drop n) (hne : p ≠ []) :
    splitLast p (pre ++ (p ++ post)) = some (pre, post) := by
  induction pre with
  | nil =>
    simp only [List.nil_append]
    -- no later occurrence inside the pattern itself
    have key : ∀ k, k ≤ p.length → 0 < k → splitLast p ((p ++ post).drop (p.length - (p.length - k))) = none := by
      intro k
      intro hk hpos
      generalize hd : p.length - k = d
      induction d generalizing k with
      | zero =>
        have : k = p.length := by omega
        subst this; simpa using h
      | succ d ih =>
        have hlt : k < p.length := by omega
        have e : p.length - (d+1) = k := by omega
        rw [e]
        have hl : k < (p ++ post).length := by simp; omega
        rw [List.drop_eq_getElem_cons hl]
        have := ih (k+1) (by omega) (by omega) (by omega)
        have e2 : p.length - d = k + 1 := by omega
        rw [e2] at this
        have hnp := hno k hpos hk
        simp only [splitLast, this]
        rw [← List.drop_eq_getElem_cons hl]
        simp [hnp]
    cases p with
    | nil => exact absurd rfl hne
    | cons c p' =>
      have h1 := key 1 (by simp) (by omega)
      have e : (c :: p').length - ((c :: p').length - 1) = 1 := by simp
      rw [e] at h1
      simp only [List.cons_append, List.drop_succ_cons, List.drop_zero] at h1
      simp only [List.cons_append, splitLast, h1]
      simp
  | cons c pre ih => simp [splitLast, ih]

theorem suffix_no_overlap (post : List Char) : ∀ n, 0 < n → n ≤ bindgenSuffix.toList.length →
    (∀ c ∈ post, c.isDigit = true) → ¬ bindgenSuffix.toList <+: (bindgenSuffix.toList ++ post).drop n := by
  intro n hn hle hd
  have e : bindgenSuffix.toList = ['_','b','i','n','d','g','e','n','_','o','r','i','g','i','n','a','l'] := by
    decide
  rw [e] at *
  have hle : n ≤ 17 := hle
  have : n = 1 ∨ n = 2 ∨ n = 3 ∨ n = 4 ∨ n = 5 ∨ n = 6 ∨ n = 7 ∨ n = 8 ∨ n = 9 ∨ n = 10 ∨ n = 11 ∨
    n = 12 ∨ n = 13 ∨ n = 14 ∨ n = 15 ∨ n = 16 ∨ n = 17 := by omega
  rcases this with h | h | h | h | h | h | h | h | h | h | h | h | h | h | h | h | h <;> subst h <;>
    simp
  cases post with
  | nil => simp
  | cons c r =>
    intro hp
    have hc : c = '_' := by
      have := (List.cons_prefix_cons.1 hp).1
      exact this.symm
    have := hd c (by simp)
    rw [hc] at this
    exact absurd this (by decide)

theorem digits_no_suffix (d : List Char) (h : ∀ c ∈ d, c.isDigit = true) :
    splitLast bindgenSuffix.toList d = none := by
  apply splitLast_none
  intro hx
  have : '_' ∈ d := hx.subset (by decide)
  have := h _ this
  exact absurd this (by decide)

/-- **C49 (transparent suffix)**: the name of a function passed to bindgen with autocxx's suffix, and
returned with any overload number appended, is the original name with that number, whatever the
original name is. -/
theorem bindgen_suffix_roundtrip (n d : String) (h : ∀ c ∈ d.toList, c.isDigit = true) :
    ∃ s, generatedNameOverride true n = some s ∧ stripBindgenSuffix (s ++ d) = n ++ d := by
  refine ⟨n ++ bindgenSuffix, rfl, ?_⟩
  unfold stripBindgenSuffix
  have : (n ++ bindgenSuffix ++ d).toList = n.toList ++ (bindgenSuffix.toList ++ d.toList) := by simp
  rw [this, splitLast_append _ _ _ (digits_no_suffix _ h)
    (fun k hk hl => suffix_no_overlap _ k hk hl h) (by decide)]
  simp only
  have ht : d.toList.takeWhile Char.isDigit = d.toList := by
    have := List.takeWhile_append_of_pos (l₂ := []) h
    simpa using this
  rw [ht]
  rw [← String.toList_inj]; simp

/-- **C49 (other names)**: names which do not contain the suffix are unchanged; types are not
renamed when passed to bindgen. -/
theorem bindgen_suffix_absent (n : String) (h : ¬ bindgenSuffix.toList <:+: n.toList) :
    stripBindgenSuffix n = n ∧ generatedNameOverride false n = none := by
  unfold stripBindgenSuffix
  rw [splitLast_none _ _ h]
  simp [generatedNameOverride]

example : stripBindgenSuffix "foo_bindgen_original12" = "foo12" ∧
    stripBindgenSuffix "a_bindgen_original_bindgen_original3" = "a_bindgen_original3" := by decide +kernel

/-- A *type* whose C++ name contains the suffix is not transparent: types are not given the suffix but
their names are stripped all the same (engine/src/parse_callbacks.rs:300,324), so two different
C++ types can get one name. -/
theorem bindgen_suffix_type_witness :
    generatedNameOverride false "A_bindgen_original" = none ∧
    stripBindgenSuffix "A_bindgen_original" = stripBindgenSuffix "A" := by decide +kernel

end Verif
