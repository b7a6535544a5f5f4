import Verif.Config

/-!
# C16: what is on the allowlist, and the state machine behind C15
-/

set_option autoImplicit false

namespace Verif

/-! ## C16 -/

/-- `n` is one of the helper names that some directive other than `generate*!` asks for. -/
inductive Config.Mentioned (hash : Config → Nat) (c : Config) (n : String) : Prop
  /-- the string-construction utility, unless `exclude_utilities!` -/
  | utility (h : c.excludeUtilities = false) (e : n = c.makestringName hash)
  /-- a `subclass!`, its superclass, its holder, or its C++ peer -/
  | subclass (sc) (h : sc ∈ c.subclasses) (e : n = sc.subclass)
  | superclass (sc) (h : sc ∈ c.subclasses) (e : n = sc.superclass)
  | holder (sc) (h : sc ∈ c.subclasses) (e : n = sc.subclass ++ "Holder")
  | peer (sc) (h : sc ∈ c.subclasses) (e : n = sc.subclass ++ "Cpp")
  /-- an `extern_rust_function!` -/
  | rustFun (f) (h : f ∈ c.externRustFuns) (e : f.sig.ident = n)
  /-- an `extern_rust_type!` -/
  | rustType (p) (h : p ∈ c.rustTypes) (e : p.getLast? = some n)
  /-- the Rust name of a `concrete!` -/
  | concrete (k) (h : (k, n) ∈ c.concretes)

/-- An entry of the list covers a name the way the code decides it: namespaces by plain prefix. -/
def AllowlistEntry.Covers (e : AllowlistEntry) (n : String) : Prop :=
  e = .item n ∨ ∃ ns rest, e = .nspace ns ∧ n = ns ++ rest

/-- What the user means: the name itself, or a name below the namespace. -/
def AllowlistEntry.Means (e : AllowlistEntry) (n : String) : Prop :=
  e = .item n ∨ ∃ ns rest, e = .nspace ns ∧ n = ns ++ "::" ++ rest

theorem Config.mentioned_iff (hash : Config → Nat) (c : Config) (n : String) :
    ((c.activeUtilities hash).any (· = n) || c.isSubclassOrSuperclass n || c.isSubclassHolder n ||
      c.isSubclassCpp n || c.isRustFun n || c.isRustTypeName n || c.isConcreteType n) = true ↔
    Config.Mentioned hash c n := by
  simp only [Bool.or_eq_true]
  constructor
  · rintro ((((((h | h) | h) | h) | h) | h) | h)
    · simp only [activeUtilities] at h
      cases hu : c.excludeUtilities
      · simp [hu] at h; exact .utility hu h.symm
      · simp [hu] at h
    · simp only [isSubclassOrSuperclass, List.any_flatMap, List.any_eq_true, List.any_cons,
        List.any_nil, Bool.or_false, Bool.or_eq_true, decide_eq_true_eq] at h
      obtain ⟨sc, hs, h | h⟩ := h
      · exact .subclass sc hs h
      · exact .superclass sc hs h
    · simp only [isSubclassHolder, List.any_eq_true, decide_eq_true_eq] at h
      obtain ⟨sc, hs, h⟩ := h; exact .holder sc hs h.symm
    · simp only [isSubclassCpp, List.any_eq_true, decide_eq_true_eq] at h
      obtain ⟨sc, hs, h⟩ := h; exact .peer sc hs h.symm
    · simp only [isRustFun, List.any_eq_true, decide_eq_true_eq] at h
      obtain ⟨f, hs, h⟩ := h; exact .rustFun f hs h
    · simp only [isRustTypeName, List.any_eq_true, decide_eq_true_eq] at h
      obtain ⟨f, hs, h⟩ := h; exact .rustType f hs h
    · simp only [isConcreteType, List.any_eq_true, decide_eq_true_eq] at h
      obtain ⟨⟨k, v⟩, hs, h⟩ := h
      simp only at h; subst h; exact .concrete k hs
  · intro h
    cases h with
    | utility hu e => simp [activeUtilities, hu, e]
    | subclass sc hs e => 
      refine Or.inl (Or.inl (Or.inl (Or.inl (Or.inl (Or.inr ?_)))))
      simp only [isSubclassOrSuperclass, List.any_flatMap, List.any_eq_true, List.any_cons,
        List.any_nil, Bool.or_false, Bool.or_eq_true, decide_eq_true_eq]
      exact ⟨sc, hs, Or.inl e⟩
    | superclass sc hs e =>
      refine Or.inl (Or.inl (Or.inl (Or.inl (Or.inl (Or.inr ?_)))))
      simp only [isSubclassOrSuperclass, List.any_flatMap, List.any_eq_true, List.any_cons,
        List.any_nil, Bool.or_false, Bool.or_eq_true, decide_eq_true_eq]
      exact ⟨sc, hs, Or.inr e⟩
    | holder sc hs e =>
      refine Or.inl (Or.inl (Or.inl (Or.inl (Or.inr ?_))))
      simp only [isSubclassHolder, List.any_eq_true, decide_eq_true_eq]
      exact ⟨sc, hs, e.symm⟩
    | peer sc hs e =>
      refine Or.inl (Or.inl (Or.inl (Or.inr ?_)))
      simp only [isSubclassCpp, List.any_eq_true, decide_eq_true_eq]
      exact ⟨sc, hs, e.symm⟩
    | rustFun f hs e =>
      refine Or.inl (Or.inl (Or.inr ?_))
      simp only [isRustFun, List.any_eq_true, decide_eq_true_eq]
      exact ⟨f, hs, e⟩
    | rustType f hs e =>
      refine Or.inl (Or.inr ?_)
      simp only [isRustTypeName, List.any_eq_true, decide_eq_true_eq]
      exact ⟨f, hs, e⟩
    | concrete k hs =>
      refine Or.inr ?_
      simp only [isConcreteType, List.any_eq_true, decide_eq_true_eq]
      exact ⟨_, hs, rfl⟩

/-- **C16 (as the code decides it)**: a name is on the allowlist exactly when `generate_all!` is in
force, some entry covers it (namespaces by plain text prefix), or another directive mentions it. -/
theorem on_allowlist_iff (hash : Config → Nat) (c : Config) (n : String) :
    c.isOnAllowlist hash n = some true ↔
      Config.Mentioned hash c n ∨ c.allowlist = .all ∨
      ∃ l, c.allowlist = .specific l ∧ ∃ e ∈ l, e.Covers n := by
  unfold Config.isOnAllowlist
  by_cases hm : Config.Mentioned hash c n
  · rw [if_pos ((Config.mentioned_iff hash c n).2 hm)]; simp [hm]
  · rw [if_neg (fun h => hm ((Config.mentioned_iff hash c n).1 h))]
    cases ha : c.allowlist with
    | unspecified l => simp [hm]
    | all => simp
    | specific l =>
      simp only [Option.some.injEq, List.any_eq_true, hm, false_or, reduceCtorEq]
      constructor
      · rintro ⟨e, he, h⟩
        refine ⟨l, rfl, e, he, ?_⟩
        cases e with
        | item i => simp at h; subst h; exact Or.inl rfl
        | nspace ns =>
          rw [startsWith_iff_append] at h
          obtain ⟨r, hr⟩ := h
          exact Or.inr ⟨ns, r, rfl, hr⟩
      · rintro ⟨l', hl, e, he, h⟩
        cases hl
        refine ⟨e, he, ?_⟩
        rcases h with rfl | ⟨ns, r, rfl, h⟩
        · simp
        · simp only; rw [startsWith_iff_append]; exact ⟨r, h⟩

/-- **C16 (panic)**: the question panics exactly when the allowlist has not been decided and no other
directive mentions the name. -/
theorem on_allowlist_panics_iff (hash : Config → Nat) (c : Config) (n : String) :
    c.isOnAllowlist hash n = none ↔
      ¬ Config.Mentioned hash c n ∧ ∃ l, c.allowlist = .unspecified l := by
  unfold Config.isOnAllowlist
  by_cases hm : Config.Mentioned hash c n
  · rw [if_pos ((Config.mentioned_iff hash c n).2 hm)]; simp [hm]
  · rw [if_neg (fun h => hm ((Config.mentioned_iff hash c n).1 h))]
    cases ha : c.allowlist <;> simp [hm]

/-- After `confirm_complete` the question never panics. -/
theorem on_allowlist_total (hash : Config → Nat) (c : Config) (n : String) :
    c.confirmComplete.isOnAllowlist hash n ≠ none := by
  rw [ne_eq, on_allowlist_panics_iff]
  rintro ⟨_, l, h⟩
  unfold Config.confirmComplete at h
  cases ha : c.allowlist with
  | unspecified _ => rw [ha] at h; cases h
  | all => rw [ha] at h; simp [ha] at h
  | specific _ => rw [ha] at h; simp [ha] at h

/-- **C16 is false of the code**: with only `generate_ns!("foo")`, an item of namespace `foobar` is on
the allowlist although nothing the user wrote means it. -/
theorem generate_ns_boundary_false :
    ∃ (c : Config) (n : String), (∀ hash, c.isOnAllowlist hash n = some true) ∧
      c.allowlist = .specific [.nspace "foo"] ∧ c.excludeUtilities = true ∧
      ¬ (AllowlistEntry.nspace "foo").Means n ∧ ∀ hash, ¬ Config.Mentioned hash c n := by
  refine ⟨{ allowlist := .specific [.nspace "foo"], excludeUtilities := true }, "foobar::Thing",
    ?_, rfl, rfl, ?_, ?_⟩
  · intro hash
    rw [on_allowlist_iff]
    exact Or.inr (Or.inr ⟨_, rfl, _, List.mem_singleton.2 rfl, Or.inr ⟨_, "bar::Thing", rfl, by decide⟩⟩)
  · rintro (h | ⟨ns, r, h, e⟩)
    · cases h
    · cases h
      have := congrArg String.toList e
      simp at this
  · intro hash h
    cases h with
    | utility hu e => cases hu
    | subclass sc hs e => cases hs
    | superclass sc hs e => cases hs
    | holder sc hs e => cases hs
    | peer sc hs e => cases hs
    | rustFun f hs e => cases hs
    | rustType f hs e => cases hs
    | concrete k hs => cases hs

/-- **C16 (partial: true of names for which prefix and namespace agree)**: if every listed namespace
that is a textual prefix of the name is followed by `::` there, an item is on the allowlist exactly
when the user asked for it. -/
theorem on_allowlist_iff_partial (hash : Config → Nat) (c : Config) (n : String)
    (hb : ∀ l ns rest, c.allowlist = .specific l → .nspace ns ∈ l → n = ns ++ rest →
      startsWith rest "::" = true) :
    c.isOnAllowlist hash n = some true ↔
      Config.Mentioned hash c n ∨ c.allowlist = .all ∨
      ∃ l, c.allowlist = .specific l ∧ ∃ e ∈ l, e.Means n := by
  rw [on_allowlist_iff]
  refine or_congr Iff.rfl (or_congr Iff.rfl ⟨?_, ?_⟩)
  · rintro ⟨l, hl, e, he, h⟩
    refine ⟨l, hl, e, he, ?_⟩
    rcases h with rfl | ⟨ns, r, rfl, h⟩
    · exact Or.inl rfl
    · obtain ⟨r', hr⟩ := (startsWith_iff_append _ _).1 (hb l ns r hl he h)
      exact Or.inr ⟨ns, r', rfl, by rw [h, hr, String.append_assoc]⟩
  · rintro ⟨l, hl, e, he, h⟩
    refine ⟨l, hl, e, he, ?_⟩
    rcases h with rfl | ⟨ns, r, rfl, h⟩
    · exact Or.inl rfl
    · exact Or.inr ⟨ns, "::" ++ r, rfl, by rw [h, String.append_assoc]⟩

/-- Everything the user means is on the allowlist, unconditionally. -/
theorem on_allowlist_complete (hash : Config → Nat) (c : Config) (n : String) (l : List AllowlistEntry)
    (hl : c.allowlist = .specific l) (e : AllowlistEntry) (he : e ∈ l) (h : e.Means n) :
    c.isOnAllowlist hash n = some true := by
  rw [on_allowlist_iff]
  refine Or.inr (Or.inr ⟨l, hl, e, he, ?_⟩)
  rcases h with rfl | ⟨ns, r, rfl, h⟩
  · exact Or.inl rfl
  · exact Or.inr ⟨ns, "::" ++ r, rfl, by rw [h, String.append_assoc]⟩

example : ∃ c : Config, c.allowlist = .specific [.item "A", .nspace "foo"] ∧
    ∀ l ns rest, c.allowlist = .specific l → .nspace ns ∈ l → "foo::B" = ns ++ rest →
      startsWith rest "::" = true := by
  refine ⟨{ allowlist := .specific [.item "A", .nspace "foo"] }, rfl, ?_⟩
  intro l ns rest h hm e
  cases h
  simp at hm; subst hm
  rw [startsWith_iff]
  have := congrArg String.toList e
  simp at this
  rw [← this]; decide

/-- **C16 (bindgen sees the same requests)**: every item and every pod request the user listed is in the
list handed to bindgen, with namespaces as the pattern "anything below". -/
theorem bindgen_allowlist_spec (hash : Config → Nat) (c : Config) (l : List AllowlistEntry)
    (hl : c.allowlist = .specific l) :
    ∃ out, c.bindgenAllowlist hash = some (some out) ∧
      (∀ i, .item i ∈ l → i ∈ out) ∧ (∀ ns, .nspace ns ∈ l → (ns ++ "::.*") ∈ out) ∧
      (∀ p ∈ c.podRequests, p ∈ out) ∧
      (∀ sc ∈ c.subclasses, sc.superclass ∈ out ∧ sc.subclass ∈ out ∧ (sc.subclass ++ "Cpp") ∈ out) ∧
      (∀ x ∈ out, (∃ e ∈ l, x = e.toBindgenItem) ∨ x ∈ c.podRequests ∨ Config.Mentioned hash c x) := by
  simp only [Config.bindgenAllowlist, hl]
  refine ⟨_, rfl, ?_, ?_, ?_, ?_, ?_⟩
  · intro i hi
    simp only [List.mem_append, List.mem_map]
    exact Or.inl (Or.inl (Or.inl ⟨_, hi, rfl⟩))
  · intro i hi
    simp only [List.mem_append, List.mem_map]
    exact Or.inl (Or.inl (Or.inl ⟨_, hi, rfl⟩))
  · intro p hp
    simp only [List.mem_append]
    exact Or.inl (Or.inl (Or.inr hp))
  · intro sc hs
    simp only [List.mem_append, List.mem_flatMap]
    exact ⟨Or.inr ⟨sc, hs, by simp⟩, Or.inr ⟨sc, hs, by simp⟩, Or.inr ⟨sc, hs, by simp⟩⟩
  · intro x hx
    simp only [List.mem_append, List.mem_flatMap, List.mem_map] at hx
    rcases hx with ((⟨e, he, rfl⟩ | hx) | hx) | ⟨sc, hs, hx⟩
    · exact Or.inl ⟨e, he, rfl⟩
    · exact Or.inr (Or.inl hx)
    · right; right
      cases hu : c.excludeUtilities
      · simp [Config.activeUtilities, hu] at hx; exact .utility hu hx
      · simp [Config.activeUtilities, hu] at hx
    · right; right
      simp only [List.mem_cons, List.not_mem_nil, or_false] at hx
      rcases hx with rfl | rfl | rfl
      · exact .peer sc hs rfl
      · exact .subclass sc hs rfl
      · exact .superclass sc hs rfl

/-! ## C15: the allowlist state machine -/

/-- One allowlist-related directive. -/
inductive AllowOp where
  | generate (e : AllowlistEntry)
  | generateAll
deriving DecidableEq

/-- The entries asked for, in order. -/
def AllowOp.entries (ops : List AllowOp) : List AllowlistEntry :=
  ops.filterMap fun
    | .generate e => some e
    | .generateAll => none

/-- Runs the directives; `none` is the conflict error. -/
def Allowlist.run (a : Allowlist) (ops : List AllowOp) : Option Allowlist :=
  ops.foldlM (fun a op => match op with
    | .generate e => a.push e
    | .generateAll => a.setAll) a

/-- The outcome the user expects of a sequence of directives. -/
def specAllowlist (ops : List AllowOp) : Option Allowlist :=
  if .generateAll ∈ ops then
    if AllowOp.entries ops = [] then some .all else none
  else if AllowOp.entries ops = [] then some (.unspecified [])
  else some (.specific (AllowOp.entries ops))

theorem run_specific (l : List AllowlistEntry) (ops : List AllowOp) :
    Allowlist.run (.specific l) ops =
      if .generateAll ∈ ops then none else some (.specific (l ++ AllowOp.entries ops)) := by
  induction ops generalizing l with
  | nil => simp [Allowlist.run, AllowOp.entries]
  | cons op r ih =>
    cases op with
    | generate e =>
      have := ih (l ++ [e])
      simp only [Allowlist.run, List.foldlM_cons, Allowlist.push, Option.bind_eq_bind,
        Option.bind_some] at this ⊢
      rw [this]
      simp [AllowOp.entries]
    | generateAll => simp [Allowlist.run, Allowlist.setAll]

theorem run_all (ops : List AllowOp) :
    Allowlist.run .all ops = if AllowOp.entries ops = [] then some .all else none := by
  induction ops with
  | nil => simp [Allowlist.run, AllowOp.entries]
  | cons op r ih =>
    cases op with
    | generate e => simp [Allowlist.run, Allowlist.push, AllowOp.entries]
    | generateAll =>
      simp only [Allowlist.run, List.foldlM_cons, Allowlist.setAll, Option.bind_eq_bind,
        Option.bind_some] at ih ⊢
      rw [ih]; simp [AllowOp.entries]

/-- **C15 (state machine)**: whatever the order and number of `generate*!` and `generate_all!`, the
outcome is the expected one: a conflict exactly when both kinds occur, otherwise `All` or the
complete list in order. -/
theorem allowlist_run_spec (ops : List AllowOp) :
    Allowlist.run (.unspecified []) ops = specAllowlist ops := by
  cases ops with
  | nil => simp [Allowlist.run, specAllowlist, AllowOp.entries]
  | cons op r =>
    cases op with
    | generate e =>
      show Allowlist.run (.specific ([] ++ [e])) r = _
      rw [run_specific]
      simp [specAllowlist, AllowOp.entries]
    | generateAll =>
      show Allowlist.run .all r = _
      rw [run_all]
      simp [specAllowlist, AllowOp.entries]

example : specAllowlist [.generate (.item "A"), .generateAll] = none ∧
    specAllowlist [.generateAll, .generate (.item "A")] = none ∧
    specAllowlist [.generate (.item "A"), .generate (.nspace "n")] =
      some (.specific [.item "A", .nspace "n"]) := by decide

end Verif
