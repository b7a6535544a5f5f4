import Verif.KnownTypesLit

/-!
# C41: built-in type knowledge is consistent

The table is finite, so a check of the complete table by the kernel, lifted to all names by
`known_get_mem`, is a proof for all names.
-/

set_option autoImplicit false

namespace Verif

/-- The option is present and its content satisfies `P`. -/
def OptAll {α : Type} (P : α → Prop) : Option α → Prop
  | none => False
  | some a => P a

instance {α : Type} (P : α → Prop) [DecidablePred P] (o : Option α) : Decidable (OptAll P o) :=
  match o with
  | none => isFalse id
  | some a => inferInstanceAs (Decidable (P a))

/-- Only names that are keys of one of the two maps are known. -/
theorem known_get_mem (db : TypeDatabase) {q : QName} {d : TypeDetails} (h : db.get q = some d) :
    q ∈ db.allNames := by
  unfold TypeDatabase.get at h
  unfold TypeDatabase.allNames
  rw [List.mem_append]
  cases hc : db.canonicalNames.get? q with
  | some r => exact Or.inl ((AMap.mem_keys_iff _ _).2 ⟨r, hc⟩)
  | none =>
    rw [hc] at h
    exact Or.inr ((AMap.mem_keys_iff _ _).2 ⟨d, h⟩)

/-- Lifting of a check over the complete table to all names. -/
theorem known_forall (P : QName → TypeDetails → Prop)
    (h : ∀ n ∈ knownTypesLit.allNames, ∀ d, knownTypesLit.get n = some d → P n d)
    {q : QName} {d : TypeDetails} (hq : knownGet q = some d) : P q d := by
  rw [knownGet_eq_lit] at hq
  exact h q (known_get_mem _ hq) d hq

/-- The names by which the user of the database may refer to an entry of the table: its Rust name,
its C++ name, and its extra alias if any. -/
def TypeDetails.spellings (d : TypeDetails) : List String :=
  d.rsName :: d.cppName :: d.extraNonCanonicalName.toList

set_option maxRecDepth 10000 in
theorem known_table_lookup : ∀ d ∈ knownTypeTable, ∀ s ∈ d.spellings,
    knownTypesLit.get (QName.ofCppName s) = some d := by
  rw [knownTypeTable_eq_lit]; decide +kernel

set_option maxRecDepth 10000 in
theorem known_lit_from_table : ∀ n ∈ knownTypesLit.allNames,
    OptAll (fun d => d ∈ knownTypesLit.byRsName.map (·.2) ∧ n ∈ d.spellings.map QName.ofCppName)
      (knownTypesLit.get n) := by decide +kernel

/-- **C41 (unambiguous, complete)**: a name denotes an entry exactly when it is one of that entry's
spellings. In particular the C++ name, the Rust name and the extra alias of each built-in type all
lead to the same entry, no two entries share a spelling, and nothing else is known. -/
theorem known_get_iff (q : QName) (d : TypeDetails) :
    knownGet q = some d ↔ d ∈ knownTypeTable ∧ ∃ s ∈ d.spellings, q = QName.ofCppName s := by
  constructor
  · intro h
    refine known_forall (fun q d => d ∈ knownTypeTable ∧ ∃ s ∈ d.spellings, q = QName.ofCppName s)
      ?_ h
    intro n hn d hd
    have := known_lit_from_table n hn
    rw [hd] at this
    refine ⟨knownTypeTable_eq_lit ▸ this.1, ?_⟩
    obtain ⟨s, hs, e⟩ := List.mem_map.1 this.2
    exact ⟨s, hs, e.symm⟩
  · rintro ⟨hd, s, hs, rfl⟩
    rw [knownGet_eq_lit]; exact known_table_lookup d hd s hs

example : OptAll (fun d => d.cppName = "int") (knownGet ⟨["std", "os", "raw"], "c_int"⟩) := by
  rw [knownGet_eq_lit]; decide +kernel
example : knownGet ⟨["a"], "int"⟩ = none := by rw [knownGet_eq_lit]; decide +kernel

set_option maxRecDepth 10000 in
theorem known_table_nodup : (knownTypeTable.map (·.cppName)).Nodup ∧
    (knownTypeTable.map (·.rsName)).Nodup := by
  rw [knownTypeTable_eq_lit]; decide +kernel

/-- **C41 (one C++ name per type)**: two names with the same C++ spelling, or with the same Rust
spelling, denote the same entry. -/
theorem known_cpp_name_injective (q r : QName) (d e : TypeDetails)
    (hq : knownGet q = some d) (hr : knownGet r = some e)
    (h : d.cppName = e.cppName ∨ d.rsName = e.rsName) : d = e := by
  have hd := ((known_get_iff q d).1 hq).1
  have he := ((known_get_iff r e).1 hr).1
  rcases h with h | h
  · exact List.inj_on_of_nodup_map' known_table_nodup.1 hd he h
  · exact List.inj_on_of_nodup_map' known_table_nodup.2 hd he h
where
  List.inj_on_of_nodup_map' {α β : Type} {f : α → β} {l : List α} (hn : (l.map f).Nodup)
      {a b : α} (ha : a ∈ l) (hb : b ∈ l) (h : f a = f b) : a = b := by
    induction l with
    | nil => cases ha
    | cons x l ih =>
      simp only [List.map_cons, List.nodup_cons, List.mem_map, not_exists, not_and] at hn
      rcases List.mem_cons.1 ha with rfl | ha' <;> rcases List.mem_cons.1 hb with rfl | hb'
      · rfl
      · exact absurd h.symm (hn.1 b hb')
      · exact absurd h (hn.1 a ha')
      · exact ih hn.2 ha' hb'

/-- What the pod check should believe about a built-in type: everything can be held by value in
Rust except `std::string`, `std::vector` and `void`. -/
def SpecByValueSafe (d : TypeDetails) : Prop :=
  d.cppName ≠ "std::string" ∧ d.cppName ≠ "std::vector" ∧ d.cppName ≠ "void"

instance (d : TypeDetails) : Decidable (SpecByValueSafe d) := by
  unfold SpecByValueSafe; infer_instance

/-- The pod-safety map of the written-out database. -/
def podSafeLit : Option (AMap QName Bool) :=
  knownTypesLit.allNames.foldlM (init := []) fun m tn =>
    (knownTypesLit.get tn).map fun d => m.insert tn d.behavior.podSafe

theorem podSafeTypes_eq_lit : podSafeTypes = podSafeLit := by
  unfold podSafeTypes podSafeLit knownGet; rw [knownTypes_eq_lit]

set_option maxRecDepth 10000 in
theorem podSafe_table : OptAll (fun m =>
    (∀ e ∈ m, OptAll (fun d => e.2 = decide (SpecByValueSafe d)) (knownTypesLit.get e.1)) ∧
    (∀ n ∈ knownTypesLit.allNames, n ∈ m.keys)) podSafeLit := by decide +kernel

/-- **C41 (by-value safety)**: computing the by-value safety of the built-in types does not panic,
covers exactly the known names, and calls safe exactly the types other than `std::string`,
`std::vector` and `void`. -/
theorem pod_safe_types_spec : ∃ m, podSafeTypes = some m ∧
    ∀ q b, m.get? q = some b ↔ ∃ d, knownGet q = some d ∧ (b = true ↔ SpecByValueSafe d) := by
  have h := podSafe_table
  rw [podSafeTypes_eq_lit]
  cases hm : podSafeLit with
  | none => rw [hm] at h; exact h.elim
  | some m =>
    rw [hm] at h
    refine ⟨m, rfl, ?_⟩
    have key : ∀ q b, m.get? q = some b → ∃ d, knownGet q = some d ∧ (b = true ↔ SpecByValueSafe d) := by
      intro q b hb
      have := h.1 (q, b) (AMap.get?_mem hb)
      rw [knownGet_eq_lit]
      cases hd : knownTypesLit.get q with
      | none => rw [hd] at this; exact this.elim
      | some d => rw [hd] at this; exact ⟨d, rfl, by simp [show b = _ from this]⟩
    intro q b
    refine ⟨key q b, ?_⟩
    rintro ⟨d, hd, hb⟩
    have hn : q ∈ knownTypesLit.allNames := by
      rw [knownGet_eq_lit] at hd; exact known_get_mem _ hd
    obtain ⟨b', hb'⟩ := (AMap.mem_keys_iff m q).1 (h.2 q hn)
    obtain ⟨d', hd', hb''⟩ := key q b' hb'
    rw [hd] at hd'; cases hd'
    have : b = b' := by rw [Bool.eq_iff_iff]; exact hb.trans hb''.symm
    rw [this]; exact hb'

/-- The moveit-safe list of the written-out database. -/
def moveitSafeLit : Option (List QName) :=
  knownTypesLit.allNames.foldlM (init := []) fun acc tn =>
    (knownTypesLit.get tn).map fun d =>
      if d.behavior = .cxxString ∨ d.behavior = .cxxContainerVector then acc else acc ++ [tn]

set_option maxRecDepth 10000 in
theorem moveitSafe_table : OptAll (fun l => (∀ n ∈ l, n ∈ knownTypesLit.allNames) ∧
    ∀ n ∈ knownTypesLit.allNames, OptAll (fun d =>
      n ∈ l ↔ (d.cppName ≠ "std::string" ∧ d.cppName ≠ "std::vector")) (knownTypesLit.get n))
    moveitSafeLit := by decide +kernel

/-- **C41 (moveit)**: computing the types whose values can be moved by C++ does not panic and gives
exactly the known types other than `std::string` and `std::vector` (which cxx keeps behind
references). -/
theorem moveit_safe_types_spec : ∃ l, moveitSafeTypes = some l ∧
    ∀ q, q ∈ l ↔ ∃ d, knownGet q = some d ∧ d.cppName ≠ "std::string" ∧ d.cppName ≠ "std::vector" := by
  have h := moveitSafe_table
  have e : moveitSafeTypes = moveitSafeLit := by
    unfold moveitSafeTypes moveitSafeLit knownGet; rw [knownTypes_eq_lit]
  rw [e]
  cases hm : moveitSafeLit with
  | none => rw [hm] at h; exact h.elim
  | some l =>
    rw [hm] at h
    obtain ⟨hs, h⟩ := h
    refine ⟨l, rfl, fun q => ?_⟩
    rw [knownGet_eq_lit]
    constructor
    · intro hq
      have := h q (hs q hq)
      cases hd : knownTypesLit.get q with
      | none => rw [hd] at this; exact this.elim
      | some d => rw [hd] at this; exact ⟨d, rfl, this.mp hq⟩
    · rintro ⟨d, hd, hne⟩
      have := h q (known_get_mem _ hd)
      rw [hd] at this; exact this.mpr hne

set_option maxRecDepth 10000 in
theorem known_constructors_table : ∀ d ∈ knownTypeTable,
    d.cppName ≠ "char16_t" → SpecByValueSafe d →
    d.hasMoveConstructor = true ∨ d.hasConstCopyConstructor = true := by
  rw [knownTypeTable_eq_lit]; decide +kernel

/-- **C41 (by-value types can be constructed), partial**: every built-in type that may be held by
value, apart from `char16_t`, is recorded as having a copy or a move constructor. The full statement
would have no exception; `known_pod_safe_has_constructor_false` shows it is false of the code. -/
theorem known_pod_safe_has_constructor_partial (q : QName) (d : TypeDetails)
    (h : knownGet q = some d) (hs : SpecByValueSafe d) (hne : d.cppName ≠ "char16_t") :
    constructorDetails q = some (d.hasMoveConstructor, d.hasConstCopyConstructor) ∧
      (d.hasMoveConstructor = true ∨ d.hasConstCopyConstructor = true) := by
  refine ⟨by simp [constructorDetails, h], ?_⟩
  exact known_constructors_table d ((known_get_iff q d).1 h).1 hne hs

example : OptAll (fun d => SpecByValueSafe d ∧ d.cppName ≠ "char16_t") (knownGet ⟨[], "float"⟩) := by
  rw [knownGet_eq_lit]; decide +kernel

/-- `char16_t` may be held by value although the table records neither a copy nor a move
constructor for it (engine/src/known_types.rs:547-554), so a struct with such a member is believed
to have neither. -/
theorem known_pod_safe_has_constructor_false :
    ¬ ∀ q d, knownGet q = some d → SpecByValueSafe d →
      constructorDetails q = some (false, false) → False := by
  intro h
  have e : knownGet ⟨[], "char16_t"⟩ = some ⟨"autocxx::c_char16_t", "char16_t", .cChar16,
      some "c_char16_t", false, false⟩ := by rw [knownGet_eq_lit]; decide +kernel
  exact h ⟨[], "char16_t"⟩ _ e (by decide) (by rw [constructorDetails, e]; rfl)

/-- The kind of template a C++ name is, as far as cxx is concerned. -/
def SpecGeneric : String → CxxGenericType
  | "std::unique_ptr" | "std::shared_ptr" | "std::weak_ptr" => .cppPtr
  | "std::vector" => .cppVector
  | "rust::Box" => .rust
  | _ => .not

set_option maxRecDepth 10000 in
theorem known_class_table : ∀ d ∈ knownTypeTable,
    d.genericBehavior = SpecGeneric d.cppName ∧
    ((d.behavior = .cxxContainerPtr ∨ d.behavior = .cxxContainerVector ∨
      d.behavior = .rustContainerByValueSafe) ↔ SpecGeneric d.cppName ≠ .not) ∧
    (d.behavior = .rustStr ↔ d.cppName = "rust::Str") ∧
    (d.behavior = .cxxString ↔ d.cppName = "std::string") ∧
    (d.behavior = .cxxContainerVector ↔ d.cppName = "std::vector") ∧
    ((d.behavior = .cVariableLengthByValue ∨ d.behavior = .cVoid ∨ d.behavior = .cChar16) ↔
      startsWith d.rsName "autocxx::" = true) ∧
    (d.behavior = .cByValueVecSafe ↔ d.cppName ∈ ["int8_t", "uint8_t", "int16_t", "uint16_t",
      "int32_t", "uint32_t", "int64_t", "uint64_t", "float", "double", "size_t"]) := by
  rw [knownTypeTable_eq_lit]; decide +kernel

/-- **C41 (classification)**: for every name, the answers about templates, copying, string
conversion, C integer wrappers and permitted vector / unique_ptr contents are consistent with each
other and with the C++ type the name denotes; for a name which is not built in, they are the
answers for an ordinary class. -/
theorem known_classification (q : QName) :
    (∀ d, knownGet q = some d →
      cxxGenericBehavior q = SpecGeneric d.cppName ∧
      (lacksCopyConstructor q = true ↔ SpecGeneric d.cppName ≠ .not) ∧
      (shouldDereferenceInCpp q = true ↔ d.cppName = "rust::Str") ∧
      (convertibleFromStrs q = true ↔ d.cppName = "std::string") ∧
      (permissibleWithinUniquePtr q = true ↔ d.cppName = "std::string" ∨ d.cppName = "std::vector") ∧
      (permissibleWithinVector q = true ↔ d.cppName = "std::string" ∨
        d.cppName ∈ ["int8_t", "uint8_t", "int16_t", "uint16_t",
          "int32_t", "uint32_t", "int64_t", "uint64_t", "float", "double", "size_t"]) ∧
      (isCtype q = true ↔ startsWith d.rsName "autocxx::" = true) ∧
      isCxxAcceptableReceiver q = false ∧ conflictsWithBuiltInType q = true) ∧
    (knownGet q = none →
      cxxGenericBehavior q = .not ∧ lacksCopyConstructor q = false ∧
      shouldDereferenceInCpp q = false ∧ convertibleFromStrs q = false ∧
      permissibleWithinUniquePtr q = true ∧ permissibleWithinVector q = true ∧
      isCtype q = false ∧ isCxxAcceptableReceiver q = true ∧ conflictsWithBuiltInType q = false) := by
  constructor
  · intro d hd
    obtain ⟨h1, h2, h3, h4, h5, h6, h7⟩ := known_class_table d ((known_get_iff q d).1 hd).1
    rw [← h2, ← h3, ← h4, ← h5, ← h6, ← h7]
    unfold cxxGenericBehavior lacksCopyConstructor shouldDereferenceInCpp convertibleFromStrs
      permissibleWithinUniquePtr permissibleWithinVector isCtype isCxxAcceptableReceiver
      conflictsWithBuiltInType
    rw [hd]
    simp only [h1, Bool.or_eq_true, decide_eq_true_eq, or_assoc, Option.isNone_some,
      Option.isSome_some, and_self]
  · intro hn
    unfold cxxGenericBehavior lacksCopyConstructor shouldDereferenceInCpp convertibleFromStrs
      permissibleWithinUniquePtr permissibleWithinVector isCtype isCxxAcceptableReceiver
      conflictsWithBuiltInType
    rw [hn]
    simp only [Option.isNone_none, Option.isSome_none, and_self]

set_option maxRecDepth 10000 in
theorem known_prelude_table : ((knownTypeTable.filterMap (·.preludeEntry)).map (·.1)).Nodup ∧
    (∀ d ∈ knownTypeTable, d.preludeEntry = none ∨ OptAll (fun e =>
      (knownTypesLit.allNames.any fun n => n.name = e.1) = true) d.preludeEntry) := by
  rw [knownTypeTable_eq_lit]; decide +kernel

/-- **C41 (substitutes)**: the substitute classes put in the prelude for bindgen have distinct
names, and each is recognised again when bindgen hands it back in the root namespace. A name in any
namespace is never taken for a substitute. -/
theorem known_prelude_recognised :
    ((knownTypeTable.filterMap (·.preludeEntry)).map (·.1)).Nodup ∧
    (∀ d ∈ knownTypeTable, ∀ n t, d.preludeEntry = some (n, t) →
      isKnownSubstituteType ⟨[], n⟩ = true) ∧
    (∀ q : QName, q.ns ≠ [] → isKnownSubstituteType q = false) := by
  refine ⟨known_prelude_table.1, ?_, ?_⟩
  · intro d hd n t h
    have := known_prelude_table.2 d hd
    rw [h] at this
    have := this.resolve_left (by simp)
    unfold isKnownSubstituteType
    rw [knownTypes_eq_lit]
    simpa [OptAll] using this
  · intro q hq
    simp [isKnownSubstituteType, hq]

end Verif
