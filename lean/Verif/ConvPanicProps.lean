import Verif.TypeConvMore
import Verif.NamesProps

/-!
# When converting types does not panic
-/

set_option autoImplicit false

namespace Verif

/-! ### Specification -/

/-- The first ASCII letter or digit is there, and is a letter. -/
def leadsWell : List Char → Bool
  | [] => false
  | c :: r => if c.isAlphanum then !c.isDigit else leadsWell r

/-- An identifier which does not consist of underscores followed by a digit (`_3D`), or of underscores alone. -/
def GoodName (s : String) : Prop := isIdentText s = true ∧ leadsWell s.toList = true

/-- All parts of a name are such identifiers. -/
def GoodQ (q : QName) : Prop := ∀ s ∈ q.segs, GoodName s

/-- The C++ name of a type which autocxx takes for Rust's `Pin`. -/
def IsPin (q : QName) : Prop := q.toCppName = "Pin"

/-- Types as bindgen writes them: every path has a name, which is made of identifiers, and `Pin` is used with an
argument. -/
inductive GoodTy : Ty → Prop
  | path {segs : List String} {args : List Ty} {q : QName} (hq : QName.ofTypePath segs = some q) (hg : GoodQ q)
      (hp : IsPin q → args ≠ []) (ha : ∀ a ∈ args, GoodTy a) : GoodTy (.path segs args)
  | ref {mu : Bool} {lt : Option String} {e : Ty} (h : GoodTy e) : GoodTy (.ref mu lt e)
  | ptr {mu : Bool} {e : Ty} (h : GoodTy e) : GoodTy (.ptr mu e)
  | array {e : Ty} {n : String} (h : GoodTy e) : GoodTy (.array e n)
  | other {s : String} : GoodTy (.other s)

/-- The C++ names of the items outside namespaces begin well, and none is `Pin`. -/
def GoodMap (m : CppNameMap) : Prop :=
  ∀ q c, AMap.get? m q = some c → q.ns = [] → leadsWell c.toList = true ∧ c ≠ "Pin"

/-- The names given to instantiations so far. -/
def GoodSt (st : Concretes) : Prop := ∀ e ∈ st, GoodQ e.2 ∧ ¬ IsPin e.2

/-- An instantiation of a template, as it is found. -/
def InstGood (x : NullApi) : Prop :=
  (GoodQ x.name ∧ ¬ IsPin x.name) ∧ ∀ n t c, x = .concreteType n (some t) c → GoodTy t

/-- What a converter knows about the items. -/
structure GoodEnv (env : ConvEnv) : Prop where
  names : GoodMap env.names
  typedefs : ∀ q t, AMap.get? env.typedefs q = some t → GoodTy t

/-! ### Characters -/

theorem leadsWell_append {l r : List Char} (h : leadsWell l = true) : leadsWell (l ++ r) = true := by
  induction l with
  | nil => cases h
  | cons c l ih =>
    simp only [leadsWell, List.cons_append] at h ⊢
    split at h
    · rw [if_pos (by assumption)]; exact h
    · rw [if_neg (by assumption)]; exact ih h

theorem leadsWell_joinCC {l : List String} (hne : l ≠ []) (h : ∀ s ∈ l, leadsWell s.toList = true) :
    leadsWell (joinCC l).toList = true := by
  cases l with
  | nil => exact absurd rfl hne
  | cons a l =>
    have ha := h a List.mem_cons_self
    cases l with
    | nil => exact ha
    | cons b l =>
      simp only [joinCC, String.toList_append, List.append_assoc]
      exact leadsWell_append ha

theorem kept_ident {c : Char} (h : keptInIdent c = true) : (c.isAlphanum || c = '_' || 128 ≤ c.toNat) = true := by
  rw [keptInIdent] at h
  rw [h]; rfl

theorem joinWith_all {p : Char → Bool} (hu : p '_' = true) : ∀ (l : List (List Char)), (∀ x ∈ l, x.all p = true) →
    (joinWith "_" (l.map String.ofList)).toList.all p = true
  | [], _ => by simp [joinWith]
  | [a], h => by
    have := h a (by simp)
    simpa [joinWith] using this
  | a :: b :: r, h => by
    have ih := joinWith_all hu (b :: r) (fun x hx => h x (List.mem_cons_of_mem _ hx))
    have ha := h a (by simp)
    simp only [List.map_cons] at ih
    simp only [List.map_cons, joinWith, String.toList_append, List.all_append, Bool.and_eq_true, String.toList_ofList]
    exact ⟨⟨ha, by simpa using hu⟩, ih⟩

theorem split_all {p : Char → Bool} : ∀ (l : List Char), l.all p = true → ∀ x ∈ splitUnderscore l, x.all p = true
  | [], _, x, hx => by
    simp only [splitUnderscore, List.mem_singleton] at hx
    subst hx; rfl
  | c :: r, h, x, hx => by
    simp only [List.all_cons, Bool.and_eq_true] at h
    have ih := split_all r h.2
    rw [splitUnderscore] at hx
    split at hx
    · rcases List.mem_cons.1 hx with rfl | hx
      · rfl
      · exact ih x hx
    · split at hx
      · rename_i p' ps he
        rw [he] at ih
        rcases List.mem_cons.1 hx with rfl | hx
        · simp only [List.all_cons, Bool.and_eq_true]
          exact ⟨h.1, ih p' List.mem_cons_self⟩
        · exact ih x (List.mem_cons_of_mem _ hx)
      · simp only [List.mem_singleton] at hx
        subst hx
        simpa using h.1

theorem joinWith_cons_char (c : Char) (p : List Char) (ps : List String) :
    (joinWith "_" (String.ofList (c :: p) :: ps)).toList = c :: (joinWith "_" (String.ofList p :: ps)).toList := by
  cases ps with
  | nil => simp [joinWith]
  | cons q qs => simp [joinWith]

theorem split_head : ∀ (l : List Char), l.all keptInIdent = true → leadsWell l = true →
    ∃ c p ps, (splitUnderscore l).filter (· ≠ []) = (c :: p) :: ps ∧ c.isAlpha = true
  | [], _, h => by cases h
  | c :: r, hk, h => by
    simp only [List.all_cons, Bool.and_eq_true] at hk
    simp only [leadsWell] at h
    rw [splitUnderscore]
    split
    · rename_i hc
      subst hc
      rw [if_neg (by decide)] at h
      obtain ⟨c', p, ps, he, hc'⟩ := split_head r hk.2 h
      refine ⟨c', p, ps, ?_, hc'⟩
      rw [List.filter_cons_of_neg (by simp)]
      exact he
    · rename_i hc
      have hal : c.isAlphanum = true := by
        have := hk.1
        rw [keptInIdent] at this
        simpa [hc] using this
      rw [if_pos hal] at h
      have halpha : c.isAlpha = true := by
        simp only [Char.isAlphanum, Bool.or_eq_true] at hal
        rcases hal with h' | h'
        · exact h'
        · rw [h'] at h; cases h
      split
      · rename_i p ps he
        exact ⟨c, p, ps.filter (· ≠ []), by rw [List.filter_cons_of_pos (by simp)], halpha⟩
      · exact ⟨c, [], [], by simp, halpha⟩

/-- The name made from a C++ spelling which begins well is an identifier, which begins well. -/
theorem synthetic_good {cpp : String} (h : leadsWell cpp.toList = true) : GoodName (syntheticIdent cpp) := by
  have key : ∀ l : List Char, leadsWell l = true →
      leadsWell (l.map fun c => if keptInIdent c then c else '_') = true := by
    intro l
    induction l with
    | nil => intro h; exact h
    | cons c l ih =>
      intro h
      simp only [List.map_cons, leadsWell] at h ⊢
      by_cases hc : c.isAlphanum = true
      · have hk : keptInIdent c = true := by simp [keptInIdent, hc]
        rw [if_pos hk, if_pos hc]
        rw [if_pos hc] at h
        exact h
      · rw [if_neg hc] at h
        by_cases hk : keptInIdent c = true
        · rw [if_pos hk, if_neg hc]; exact ih h
        · rw [if_neg hk, if_neg (by decide)]; exact ih h
  have hkept : (cpp.toList.map (fun c => if keptInIdent c then c else '_') ++ "_AutocxxConcrete".toList).all
      keptInIdent = true := by
    rw [List.all_append, Bool.and_eq_true]
    refine ⟨?_, by decide⟩
    rw [List.all_eq_true]
    intro x hx
    obtain ⟨c, -, rfl⟩ := List.mem_map.1 hx
    split
    · assumption
    · decide
  obtain ⟨c, p, ps, he, hc⟩ := split_head _ hkept (leadsWell_append (key _ h))
  have hall : ∀ x ∈ (splitUnderscore (cpp.toList.map (fun c => if keptInIdent c then c else '_') ++
      "_AutocxxConcrete".toList)).filter (· ≠ []), x.all keptInIdent = true :=
    fun x hx => split_all _ hkept x (List.mem_of_mem_filter hx)
  have hj := joinWith_all (p := keptInIdent) (by decide) _ hall
  have hs : (syntheticIdent cpp).toList = c :: (joinWith "_" (String.ofList p :: ps.map String.ofList)).toList := by
    rw [syntheticIdent]
    rw [he, List.map_cons, joinWith_cons_char]
  rw [show joinWith "_" (List.map String.ofList _) = syntheticIdent cpp from rfl, hs] at hj
  simp only [List.all_cons, Bool.and_eq_true] at hj
  have hnd : c.isDigit = false := by
    have : c.isAlpha = true → c.isDigit = false := by
      intro h
      simp only [Char.isAlpha, Char.isUpper, Char.isLower, Char.isDigit, Bool.or_eq_true, Bool.and_eq_true,
        decide_eq_true_eq, Bool.and_eq_false_iff, decide_eq_false_iff_not, ge_iff_le] at h ⊢
      right
      rcases h with ⟨h1, -⟩ | ⟨h1, -⟩
      · exact fun hle => absurd (UInt32.le_trans h1 hle) (by decide)
      · exact fun hle => absurd (UInt32.le_trans h1 hle) (by decide)
    exact this hc
  refine ⟨?_, ?_⟩
  · rw [isIdentText, hs]
    simp only [hc, Bool.true_or, Bool.true_and]
    rw [List.all_eq_true]
    intro x hx
    exact kept_ident (List.all_eq_true.1 hj.2 x hx)
  · rw [hs, leadsWell, if_pos (by simp [Char.isAlphanum, hc]), hnd]
    rfl

theorem ident_append_dec {s : String} (h : isIdentText s = true) (n : Nat) : isIdentText (s ++ dec n) = true := by
  rw [isIdentText] at h ⊢
  rw [String.toList_append]
  split at h
  · cases h
  · rename_i c r he
    rw [he, List.cons_append]
    simp only [Bool.and_eq_true, List.all_append] at h ⊢
    refine ⟨h.1, h.2, ?_⟩
    rw [List.all_eq_true]
    intro x hx
    have := dec_digit n x hx
    simp [Char.isAlphanum, this]

theorem concreteIdent_good {st : Concretes} {cpp : String} (h : leadsWell cpp.toList = true) :
    GoodName (concreteIdent st cpp) := by
  rw [concreteIdent]
  split
  · refine ⟨ident_append_dec (by decide) _, ?_⟩
    rw [String.toList_append]
    exact leadsWell_append (by decide)
  · exact synthetic_good h

theorem concreteIdent_long (st : Concretes) (cpp : String) : 15 ≤ (concreteIdent st cpp).toList.length := by
  rw [concreteIdent]
  split
  · rw [String.toList_append, List.length_append]
    have : "AutocxxConcrete".toList.length = 15 := by decide
    omega
  · obtain ⟨p, hp⟩ := syntheticIdent_suffix cpp
    rw [hp, String.toList_append, List.length_append]
    have : "AutocxxConcrete".toList.length = 15 := by decide
    omega

/-! ### Names -/

set_option maxRecDepth 10000 in
theorem known_names_table : ∀ n ∈ knownTypesLit.allNames,
    OptAll (fun d => leadsWell d.cppName.toList = true ∧ (d.cppName = "Pin" → n.name = "Pin") ∧
      OptAll (fun r => ∀ s ∈ r.segs, isIdentText s = true ∧ leadsWell s.toList = true) (QName.ofTypePath d.toTypePath))
      (knownTypesLit.get n) := by decide +kernel

theorem known_names {q : QName} {d : TypeDetails} (h : knownGet q = some d) :
    leadsWell d.cppName.toList = true ∧ (d.cppName = "Pin" → q.name = "Pin") ∧
      ∃ r, QName.ofTypePath d.toTypePath = some r ∧ GoodQ r := by
  refine known_forall (fun q d => leadsWell d.cppName.toList = true ∧ (d.cppName = "Pin" → q.name = "Pin") ∧
      ∃ r, QName.ofTypePath d.toTypePath = some r ∧ GoodQ r) ?_ h
  intro n hn d hd
  have := known_names_table n hn
  rw [hd] at this
  simp only [OptAll] at this
  obtain ⟨h1, h2, h3⟩ := this
  refine ⟨h1, h2, ?_⟩
  cases hr : QName.ofTypePath d.toTypePath with
  | none => rw [hr] at h3; exact h3.elim
  | some r => rw [hr] at h3; exact ⟨r, rfl, h3⟩

theorem joinCC_pin {l : List String} (h : joinCC l = "Pin") : l = ["Pin"] := by
  cases l with
  | nil => exact absurd (congrArg String.toList h) (by decide)
  | cons a l =>
    cases l with
    | nil => simp only [joinCC] at h; rw [h]
    | cons b r =>
      exfalso
      have h' := congrArg String.toList h
      simp only [joinCC, String.toList_append] at h'
      have : ':' ∈ "Pin".toList := by rw [← h']; simp
      revert this
      decide

theorem isPin_name {q : QName} (h : IsPin q) : q.name = "Pin" := by
  rw [IsPin, QName.toCppName, specialCppName] at h
  cases hk : knownGet q with
  | some d =>
    rw [hk] at h
    exact (known_names hk).2.1 h
  | none =>
    rw [hk] at h
    have := joinCC_pin h
    rw [QName.segs] at this
    rcases List.append_eq_cons_iff.1 this with ⟨-, h⟩ | ⟨l, -, h⟩
    · exact (List.cons.inj h).1
    · simp at h

theorem goodQ_leads {q : QName} (h : GoodQ q) : leadsWell q.toCppName.toList = true := by
  rw [QName.toCppName, specialCppName]
  cases hk : knownGet q with
  | some d => exact (known_names hk).1
  | none => exact leadsWell_joinCC (by simp [QName.segs]) fun s hs => (h s hs).2

theorem goodMap_leads {m : CppNameMap} (hm : GoodMap m) {q : QName} (h : GoodQ q) :
    leadsWell (m.map q).toList = true := by
  rw [CppNameMap.map]
  split
  · rename_i c hc
    cases hn : q.ns with
    | nil => exact (hm q c hc hn).1
    | cons a r =>
      have ha := (h a (by simp [QName.segs, hn])).2
      cases r with
      | nil =>
        simp only [List.cons_append, List.nil_append, joinCC, String.toList_append, List.append_assoc]
        exact leadsWell_append ha
      | cons b r =>
        simp only [List.cons_append, joinCC, String.toList_append, List.append_assoc]
        exact leadsWell_append ha
  · exact goodQ_leads h

theorem goodMap_pin {m : CppNameMap} (hm : GoodMap m) {q : QName} (h : m.map q = "Pin") : IsPin q := by
  rw [CppNameMap.map] at h
  split at h
  · rename_i c hc
    have := joinCC_pin h
    rcases List.append_eq_cons_iff.1 this with ⟨hn, h⟩ | ⟨l, -, h⟩
    · exact absurd (List.cons.inj h).1 (hm q c hc hn).2
    · simp at h
  · exact h

/-! ### C++ spellings -/

theorem typeToCpp_good {m : CppNameMap} (hm : GoodMap m) {t : Ty} (h : GoodTy t) :
    m.typeToCpp t ≠ .panic ∧ ∀ s, m.typeToCpp t = .ok s → leadsWell s.toList = true := by
  induction h with
  | @path segs args q hq hg hp ha ih =>
    have hl : ∀ l : List Ty, (∀ a ∈ l, m.typeToCpp a ≠ .panic) → m.typesToCpp l ≠ .panic := by
      intro l
      induction l with
      | nil => intro _ h; rw [CppNameMap.typesToCpp] at h; cases h
      | cons a l ihl =>
        intro h hx
        rw [CppNameMap.typesToCpp] at hx
        have h1 := h a List.mem_cons_self
        have h2 := ihl fun b hb => h b (List.mem_cons_of_mem _ hb)
        cases ha' : m.typeToCpp a with
        | panic => exact h1 ha'
        | err e => rw [ha'] at hx; cases hx
        | ok s =>
          rw [ha'] at hx
          cases hr : m.typesToCpp l with
          | panic => exact h2 hr
          | err e => rw [hr] at hx; cases hx
          | ok ss => rw [hr] at hx; cases hx
    rw [CppNameMap.typeToCpp.eq_def]
    dsimp only
    rw [hq]
    dsimp only
    split
    · rename_i hpin
      have hne := hp (goodMap_pin hm hpin)
      cases args with
      | nil => exact absurd rfl hne
      | cons a r => exact ih a List.mem_cons_self
    · have hroot := goodMap_leads hm hg
      cases args with
      | nil => exact ⟨fun h => (by cases h), fun s h => by cases h; exact hroot⟩
      | cons a r =>
        have h1 := (ih a List.mem_cons_self).1
        have h2 := hl r fun b hb => (ih b (List.mem_cons_of_mem _ hb)).1
        dsimp only
        cases ha' : m.typeToCpp a with
        | panic => exact absurd ha' h1
        | err e => exact ⟨fun h => (by cases h), fun s h => by cases h⟩
        | ok s =>
          simp only [Outcome.bind]
          cases hr : m.typesToCpp r with
          | panic => exact absurd hr h2
          | err e => exact ⟨fun h => (by cases h), fun s h => by cases h⟩
          | ok ss =>
            refine ⟨fun h => (by cases h), fun s' h => ?_⟩
            cases h
            simp only [String.toList_append, List.append_assoc]
            exact leadsWell_append hroot
  | @ref mu lt e h ih =>
    rw [CppNameMap.typeToCpp]
    split
    · exact ⟨fun h => (by cases h), fun s h => by cases h; decide⟩
    · cases he : m.typeToCpp e with
      | panic => exact absurd he ih.1
      | err e => exact ⟨fun h => (by cases h), fun s h => by cases h⟩
      | ok s =>
        refine ⟨fun h => (by cases h), fun s' h => ?_⟩
        cases h
        simp only [String.toList_append, List.append_assoc]
        cases mu
        · exact leadsWell_append (by decide)
        · simp only [constPrefix, if_true, String.toList_empty, List.nil_append]
          exact leadsWell_append (ih.2 s he)
  | @ptr mu e h ih =>
    rw [CppNameMap.typeToCpp]
    cases he : m.typeToCpp e with
    | panic => exact absurd he ih.1
    | err e => exact ⟨fun h => (by cases h), fun s h => by cases h⟩
    | ok s =>
      refine ⟨fun h => (by cases h), fun s' h => ?_⟩
      cases h
      simp only [String.toList_append, List.append_assoc]
      cases mu
      · exact leadsWell_append (by decide)
      · simp only [constPrefix, if_true, String.toList_empty, List.nil_append]
        exact leadsWell_append (ih.2 s he)
  | array h ih =>
    rw [CppNameMap.typeToCpp]
    exact ⟨fun h => (by cases h), fun s h => by cases h⟩
  | other =>
    rw [CppNameMap.typeToCpp]
    exact ⟨fun h => (by cases h), fun s h => by cases h⟩

/-! ### The converter -/

/-- It does not panic, and the outcome is as described. -/
def Fine {α : Type} (P : α → Prop) (r : Concretes × CRes α) : Prop :=
  GoodSt r.1 ∧ r.2 ≠ .panic ∧ ∀ a, r.2 = .ok a → P a

theorem Fine.ok {α : Type} {P : α → Prop} {st : Concretes} {a : α} (hs : GoodSt st) (h : P a) : Fine P (st, .ok a) :=
  ⟨hs, fun h => (by cases h), fun b hb => by cases hb; exact h⟩

theorem Fine.err {α : Type} {P : α → Prop} {st : Concretes} {e : Err} (hs : GoodSt st) :
    Fine P ((st, .err e) : Concretes × CRes α) :=
  ⟨hs, fun h => (by cases h), fun b hb => by cases hb⟩

theorem Fine.fuel {α : Type} {P : α → Prop} {st : Concretes} (hs : GoodSt st) :
    Fine P ((st, .outOfFuel) : Concretes × CRes α) :=
  ⟨hs, fun h => (by cases h), fun b hb => by cases hb⟩

theorem Fine.thenDo {α β : Type} {P : α → Prop} {Q : β → Prop} {r : Concretes × CRes α}
    {f : Concretes → α → Concretes × CRes β} (h : Fine P r) (hf : ∀ s a, GoodSt s → P a → Fine Q (f s a)) :
    Fine Q (Verif.thenDo r f) := by
  obtain ⟨s, r⟩ := r
  obtain ⟨h1, h2, h3⟩ := h
  cases r with
  | ok a => exact hf s a h1 (h3 a rfl)
  | err e => exact .err h1
  | panic => exact absurd rfl h2
  | outOfFuel => exact .fuel h1

theorem templated_good {m : CppNameMap} (hm : GoodMap m) {st : Concretes} (hs : GoodSt st) {t : Ty} (h : GoodTy t) :
    Fine (fun r => (GoodQ r.1 ∧ ¬ IsPin r.1) ∧ ∀ x ∈ r.2, InstGood x)
      (templatedTypename m st t) := by
  obtain ⟨h1, h2⟩ := typeToCpp_good hm h
  rw [templatedTypename]
  cases hc : m.typeToCpp t with
  | err e => exact .err hs
  | panic => exact absurd hc h1
  | ok cpp =>
    dsimp only
    cases hg : AMap.get? st cpp with
    | some tn =>
      exact .ok hs ⟨hs _ (AMap.get?_mem hg), by simp⟩
    | none =>
      dsimp only
      have hn := concreteIdent_good (st := st) (h2 cpp hc)
      have hq : GoodQ ⟨[], concreteIdent st cpp⟩ := by
        intro s hs
        simp only [QName.segs, List.nil_append, List.mem_singleton] at hs
        rw [hs]; exact hn
      have hp : ¬ IsPin ⟨[], concreteIdent st cpp⟩ := by
        intro h
        have h' : concreteIdent st cpp = "Pin" := isPin_name h
        have := concreteIdent_long st cpp
        rw [h'] at this
        revert this
        decide
      rw [if_pos hn.1]
      refine .ok ?_ ⟨⟨hq, hp⟩, ?_⟩
      · intro e he
        rw [insert_new hg] at he
        rcases List.mem_append.1 he with he | he
        · exact hs e he
        · simp only [List.mem_singleton] at he
          subst he; exact ⟨hq, hp⟩
      · intro x hx
        simp only [Option.mem_some_iff] at hx
        subst hx
        exact ⟨⟨hq, hp⟩, fun n t' c e => by cases e; exact h⟩

/-- A converted type, with the instantiations to be declared. -/
def GoodConv (a : Annotated Ty) : Prop := GoodTy a.ty ∧ ∀ x ∈ a.extra, InstGood x

theorem goodTy_path {segs : List String} {args : List Ty} (h : GoodTy (.path segs args)) :
    ∃ q, QName.ofTypePath segs = some q ∧ GoodQ q ∧ (IsPin q → args ≠ []) ∧ ∀ a ∈ args, GoodTy a := by
  cases h with
  | path hq hg hp ha => exact ⟨_, hq, hg, hp, ha⟩

theorem resolveLoop_good {m : AMap QName Ty} (hm : ∀ q t, AMap.get? m q = some t → GoodTy t) :
    ∀ (fuel : Nat) (enc : List QName) (tn : QName) (prev : Option Ty), (∀ t ∈ prev, GoodTy t) →
      resolveLoop m fuel enc tn prev ≠ .panic ∧
        ∀ r, resolveLoop m fuel enc tn prev = .ok r → ∀ t ∈ r, GoodTy t
  | 0, _, _, _, _ => ⟨fun h => (by cases h), fun r h => by cases h⟩
  | fuel + 1, enc, tn, prev, hp => by
    rw [resolveLoop]
    cases hg : AMap.get? m tn with
    | none =>
      refine ⟨fun h => (by cases h), fun r h => ?_⟩
      cases h; exact hp
    | some t =>
      have ht := hm _ _ hg
      cases t with
      | path segs args =>
        obtain ⟨q, hq, -⟩ := goodTy_path ht
        simp only [hq]
        split
        · exact ⟨fun h => (by cases h), fun r h => by cases h⟩
        · split
          · exact ⟨fun h => (by cases h), fun r h => by cases h⟩
          · exact resolveLoop_good hm fuel _ _ _ fun t h => by
              simp only [Option.mem_some_iff] at h; subst h; exact ht
      | _ =>
        refine ⟨fun h => (by cases h), fun r h => ?_⟩
        cases h
        intro t h
        simp only [Option.mem_some_iff] at h
        subst h; exact ht

/-- What is known of a path whose typedefs were followed. -/
def GoodResolved : Resolved → Prop
  | .done a => GoodConv a
  | .path s a tn _ => QName.ofTypePath s = some tn ∧ GoodTy (.path s a)

theorem resolvePath_good {env : ConvEnv} (he : GoodEnv env) {segs : List String} {args : List Ty} {q : QName}
    (hq : QName.ofTypePath segs = some q) (h : GoodTy (.path segs args)) :
    resolvePath env segs args q ≠ .panic ∧ ∀ r, resolvePath env segs args q = .ok r → GoodResolved r := by
  obtain ⟨h1, h2⟩ := resolveLoop_good he.typedefs (env.typedefs.length + 1) [] q none (by simp)
  rw [resolvePath]
  change resolveTypedef env.typedefs q ≠ .panic at h1
  change ∀ r, resolveTypedef env.typedefs q = .ok r → _ at h2
  cases hr : resolveTypedef env.typedefs q with
  | err e => exact ⟨fun h => (by cases h), fun r h => by cases h⟩
  | panic => exact absurd hr h1
  | outOfFuel => exact ⟨fun h => (by cases h), fun r h => by cases h⟩
  | ok r =>
    simp only [CRes.bind]
    have hg := h2 r hr
    cases r with
    | none =>
      refine ⟨fun h => (by cases h), fun r h' => ?_⟩
      cases h'
      exact ⟨hq, h⟩
    | some t =>
      have ht := hg t (by simp)
      cases t with
      | path s a =>
        obtain ⟨tn, htn, -⟩ := goodTy_path ht
        simp only [htn]
        refine ⟨fun h => (by cases h), fun r h' => ?_⟩
        cases h'
        exact ⟨htn, ht⟩
      | _ =>
        refine ⟨fun h => (by cases h), fun r h' => ?_⟩
        cases h'
        exact ⟨ht, by simp⟩

theorem known_root_pin : isKnownType ⟨[], "Pin"⟩ = true := by decide_known

theorem ensurePointee_panics (t : Ty) : ensurePointee t ≠ .panic := by
  cases t <;> exact fun h => by cases h

theorem qualifyPath_good {env : ConvEnv} {ns : List String} (hns : ∀ s ∈ ns, GoodName s) {segs : List String}
    {args : List Ty} (h : GoodTy (.path segs args)) :
    qualifyPath env ns segs ≠ .panic ∧ ∀ s, qualifyPath env ns segs = .ok s → GoodTy (.path s args) := by
  obtain ⟨q, hq, hg, hp, ha⟩ := goodTy_path h
  cases segs with
  | nil => cases hq
  | cons first rest =>
    rw [qualifyPath]
    split
    · exact ⟨fun h => (by cases h), fun s h' => by cases h'; exact h⟩
    · rename_i hf
      rw [hq]
      dsimp only
      split
      · exact ⟨fun h => (by cases h), fun s h' => by cases h'; exact h⟩
      · rename_i hk
        split
        · exact ⟨fun h => (by cases h), fun s h' => by cases h'⟩
        · rename_i hlen
          split
          · exact ⟨fun h => (by cases h), fun s h' => by cases h'; exact h⟩
          · refine ⟨fun h => (by cases h), fun s h' => ?_⟩
            cases h'
            cases rest with
            | cons b r => simp at hlen
            | nil =>
              have hq' : QName.ofTypePath ("output" :: ns ++ [first]) = some ⟨ns, first⟩ := by
                simp only [List.cons_append, QName.ofTypePath, or_true, if_true]
                exact fromSegs_append _ _
              have hqe : q = ⟨[], first⟩ := by
                rw [QName.ofTypePath, if_neg hf] at hq
                exact (Option.some.inj hq).symm
              refine .path hq' ?_ ?_ ha
              · intro s hs
                simp only [QName.segs, List.mem_append, List.mem_singleton] at hs
                rcases hs with hs | rfl
                · exact hns s hs
                · exact hg s (by simp [hqe, QName.segs])
              · intro hpin
                have : first = "Pin" := isPin_name hpin
                exfalso
                rw [hqe, this] at hk
                exact hk known_root_pin

theorem checkTypeName_good {env : ConvEnv} {q : QName} (h : GoodQ q) : checkTypeName env q ≠ .panic := by
  have hn : isIdentText q.name = true := (h q.name (by simp [QName.segs])).1
  rw [checkTypeName]
  split
  · rename_i hp
    rw [(validate_panic_iff _).1 hp] at hn
    cases hn
  · exact fun h => by cases h
  · split
    · exact fun h => by cases h
    · exact fun h => by cases h

/-- Replacing known types keeps names good. -/
theorem substitute_good {tn : QName} {s : List String} {args args' : List Ty} (hs : QName.ofTypePath s = some tn)
    (h : GoodTy (.path s args)) (hne : args ≠ [] → args' ≠ []) (ha : ∀ a ∈ args', GoodTy a) :
    GoodTy (.path (substitutePath tn s) args') := by
  obtain ⟨q, hq, hg, hp, -⟩ := goodTy_path h
  have e : q = tn := Option.some.inj (hq.symm.trans hs)
  subst e
  rw [substitutePath.eq_def, considerSubstitution]
  cases hk : knownGet q with
  | some d =>
    obtain ⟨-, -, r, hr, hgr⟩ := known_names hk
    obtain ⟨r', hr', hkr⟩ := substitute_details hk
    have e : r' = r := Option.some.inj (hr'.symm.trans hr)
    subst e
    refine .path hr hgr (fun hpin => hne (hp ?_)) ha
    rw [IsPin, QName.toCppName, specialCppName, hkr] at hpin
    rw [IsPin, QName.toCppName, specialCppName, hk]
    exact hpin
  | none =>
    simp only [Option.map_none]
    cases s with
    | nil => cases hs
    | cons f r =>
      dsimp only
      by_cases hf : f = "root"
      · subst hf
        rw [if_pos rfl]
        refine .path (q := q) ?_ hg (fun hpin => hne (hp hpin)) ha
        simp only [QName.ofTypePath, true_or, or_true, if_true] at hs ⊢
        exact hs
      · rw [if_neg hf]
        exact .path hs hg (fun hpin => hne (hp hpin)) ha

theorem toTypePath_good {n : QName} (h : GoodQ n) (hp : ¬ IsPin n) {args : List Ty} (ha : ∀ a ∈ args, GoodTy a) :
    GoodTy (.path n.toTypePath args) := by
  rw [QName.toTypePath, considerSubstitution]
  cases hk : knownGet n with
  | some d =>
    obtain ⟨-, -, r, hr, hgr⟩ := known_names hk
    obtain ⟨r', hr', hkr⟩ := substitute_details hk
    have e : r' = r := Option.some.inj (hr'.symm.trans hr)
    subst e
    refine .path hr hgr (fun hpin => absurd ?_ hp) ha
    rw [IsPin, QName.toCppName, specialCppName, hkr] at hpin
    rw [IsPin, QName.toCppName, specialCppName, hk]
    exact hpin
  | none =>
    refine .path (q := n) ?_ h (fun hpin => absurd hpin hp) ha
    simp only [Option.map_none, QName.ofTypePath, or_true, if_true]
    exact fromSegs_segs n

theorem confirmPayload_good (env : ConvEnv) (desc : QName) (b : CxxGenericType) : ∀ (l : List Ty),
    (∀ a ∈ l, GoodTy a) → confirmPayload env desc b l ≠ .panic
  | [], _ => fun h => by cases h
  | .path segs args :: r, hl => by
    obtain ⟨q, hq, -⟩ := goodTy_path (hl _ List.mem_cons_self)
    have ih := confirmPayload_good env desc b r fun a ha => hl a (List.mem_cons_of_mem _ ha)
    rw [confirmPayload, hq]
    dsimp only
    split
    · exact fun h => by cases h
    · cases b with
      | rust =>
        dsimp only
        split
        · exact fun h => by cases h
        · split
          · exact fun h => by cases h
          · split
            · exact fun h => by cases h
            · exact fun h => by cases h
      | cppPtr =>
        dsimp only
        split
        · exact fun h => by cases h
        · exact ih
      | cppVector =>
        dsimp only
        split
        · exact fun h => by cases h
        · split
          · exact fun h => by cases h
          · exact ih
      | not => exact ih
  | .ref .. :: _, _ => fun h => by cases h
  | .ptr .. :: _, _ => fun h => by cases h
  | .array .. :: _, _ => fun h => by cases h
  | .other .. :: _, _ => fun h => by cases h

theorem finishPath_good {env : ConvEnv} {ctx : ConvCtx} {a : Annotated Ty} (h : GoodConv a) {st : Concretes}
    (hs : GoodSt st) : Fine GoodConv (st, finishPath env ctx a) := by
  rw [finishPath]
  split
  · rename_i segs args he
    obtain ⟨q, hq, -⟩ := goodTy_path (he ▸ h.1)
    rw [hq]
    dsimp only
    split
    · exact .err hs
    · split
      · refine .ok hs ⟨.ref ?_, h.2⟩
        refine .path (q := ⟨[], "str"⟩) rfl ?_ (fun hp => absurd (isPin_name hp) (by decide)) (by simp)
        intro s hs
        simp only [QName.segs, List.nil_append, List.mem_singleton] at hs
        subst hs
        exact ⟨by decide, by decide⟩
      · exact .ok hs h
  · exact .ok hs h

theorem convertArgs_good {f : Concretes → Ty → Concretes × CRes (Annotated Ty)}
    (hf : ∀ st t, GoodSt st → GoodTy t → Fine GoodConv (f st t)) : ∀ (l : List Ty) (st : Concretes), GoodSt st →
      (∀ a ∈ l, GoodTy a) →
      Fine (fun b : Annotated (List Ty) => (∀ a ∈ b.ty, GoodTy a) ∧ b.ty.length = l.length) (convertArgs f st l)
  | [], st, hs, _ => .ok hs ⟨by simp, rfl⟩
  | t :: r, st, hs, hl => by
    rw [convertArgs]
    refine Fine.thenDo (hf st t hs (hl t List.mem_cons_self)) fun s a hs ha => ?_
    refine Fine.thenDo (convertArgs_good hf r s hs fun x hx => hl x (List.mem_cons_of_mem _ hx)) fun s b hs hb => ?_
    refine .ok hs ⟨?_, by simp [hb.2]⟩
    intro x hx
    rcases List.mem_cons.1 hx with rfl | hx
    · exact ha.1
    · exact hb.1 x hx

theorem convertPlainPath_good {env : ConvEnv} (he : GoodEnv env) {ns : List String} (hns : ∀ s ∈ ns, GoodName s)
    {f : Concretes → Ty → Concretes × CRes (Annotated Ty)}
    (hf : ∀ st t, GoodSt st → GoodTy t → Fine GoodConv (f st t)) {ctx : ConvCtx} {st : Concretes} (hs : GoodSt st)
    {segs : List String} {args : List Ty} (h : GoodTy (.path segs args)) :
    Fine GoodConv (convertPlainPath f env ns ctx st segs args) := by
  rw [convertPlainPath]
  obtain ⟨h1, h2⟩ := qualifyPath_good (env := env) hns h
  refine Fine.thenDo (P := fun s => GoodTy (.path s args)) ⟨hs, h1, h2⟩ fun st segs hs h => ?_
  obtain ⟨q, hq, hg, -⟩ := goodTy_path h
  rw [hq]
  dsimp only
  refine Fine.thenDo (P := fun _ => True) ⟨hs, checkTypeName_good hg, fun _ _ => trivial⟩ fun st _ hs _ => ?_
  obtain ⟨h3, h4⟩ := resolvePath_good he hq h
  refine Fine.thenDo (P := GoodResolved) ⟨hs, h3, h4⟩ fun st r hs hr => ?_
  cases r with
  | done a => exact .ok hs hr
  | path s a tn deps =>
    obtain ⟨htn, hp⟩ := hr
    obtain ⟨-, -, -, -, ha⟩ := goodTy_path hp
    dsimp only
    rw [convertGeneric.eq_def]
    cases a with
    | nil => exact .ok hs ⟨substitute_good htn hp (fun h => absurd rfl h) (by simp), by simp⟩
    | cons x xs =>
      dsimp only
      split
      · split
        · exact .err hs
        · have hsub := substitute_good htn hp (args' := x :: xs) (fun _ => by simp) ha
          obtain ⟨qn, hqn, -⟩ := goodTy_path hsub
          rw [hqn]
          dsimp only
          split
          · exact .err hs
          · refine Fine.thenDo (templated_good he.names hs hsub) fun st r hs hr => ?_
            refine .ok hs ⟨toTypePath_good hr.1.1 hr.1.2 (by simp), ?_⟩
            intro y hy
            exact hr.2 y (by simpa using hy)
      · refine Fine.thenDo (convertArgs_good hf (x :: xs) st hs ha) fun st inner hs hi => ?_
        have hc := confirmPayload_good env tn (cxxGenericBehavior tn) inner.ty hi.1
        split
        · refine .ok hs ⟨substitute_good htn hp (fun _ h => ?_) hi.1, by simp⟩
          have hl := hi.2
          rw [h] at hl
          simp at hl
        · exact .err hs
        · rename_i hpanic
          exact absurd hpanic hc
        · exact .fuel hs

theorem unwrapMarker_good {m : String} {segs : List String} {args : List Ty} (h : GoodTy (.path segs args)) {t : Ty}
    (hm : unwrapMarker m segs args = some t) : GoodTy t := by
  obtain ⟨-, -, -, -, ha⟩ := goodTy_path h
  exact ha t (unwrapMarker_mem hm)

theorem unwrapReference_good {segs : List String} {args : List Ty} (h : GoodTy (.path segs args)) {rv mu : Bool} {e : Ty}
    (hm : unwrapReference segs args rv = some (mu, e)) : GoodTy e := by
  obtain ⟨-, -, -, -, ha⟩ := goodTy_path h
  have := ha _ (unwrapReference_mem hm)
  cases this with
  | ptr h => exact h

theorem pin_good {t : Ty} (h : GoodTy t) : GoodTy (.path ["core", "pin", "Pin"] [t]) := by
  refine .path (q := ⟨["core", "pin"], "Pin"⟩) rfl ?_ (fun _ => by simp) (by simpa using h)
  intro s hs
  simp only [QName.segs, List.cons_append, List.nil_append, List.mem_cons, List.not_mem_nil, or_false] at hs
  rcases hs with rfl | rfl | rfl <;> exact ⟨by decide, by decide⟩

/-- **C71 (types)**: converting a type never panics, if every name in it is made of identifiers, none of which consists
of underscores followed by a digit, and `Pin` is used with an argument. The outcome is such a type again. -/
theorem convert_fine {env : ConvEnv} (he : GoodEnv env) {ns : List String} (hns : ∀ s ∈ ns, GoodName s) :
    ∀ (n : Nat) (ctx : ConvCtx) (st : Concretes) (ty : Ty), GoodSt st → GoodTy ty →
      Fine GoodConv (convertType env ns n ctx st ty)
  | 0, _, st, _, hs, _ => .fuel hs
  | n + 1, ctx, st, ty, hs, h => by
    have ih := convert_fine he hns n
    rw [convertType.eq_def]
    dsimp only
    cases ty with
    | path segs args =>
      dsimp only
      cases h1 : unwrapMarker "__bindgen_marker_UnusedTemplateParam" segs args with
      | some t => exact ih ctx st t hs (unwrapMarker_good h h1)
      | none =>
        dsimp only
        cases h2 : unwrapMarker "__bindgen_marker_Opaque" segs args with
        | some t => exact ih ctx st t hs (unwrapMarker_good h h2)
        | none =>
          dsimp only
          cases h3 : unwrapReference segs args false with
          | some p =>
            obtain ⟨mu, e⟩ := p
            refine Fine.thenDo (ih _ st e hs (unwrapReference_good h h3)) fun st a hs ha => .ok hs ⟨?_, ha.2⟩
            dsimp only
            split
            · exact pin_good (.ref ha.1)
            · exact .ref ha.1
          | none =>
            dsimp only
            cases h4 : unwrapReference segs args true with
            | some p =>
              obtain ⟨mu, e⟩ := p
              refine Fine.thenDo (P := fun _ => True) ⟨hs, ensurePointee_panics e, fun _ _ => trivial⟩ fun st _ hs _ => ?_
              exact Fine.thenDo (ih _ st e hs (unwrapReference_good h h4)) fun st a hs ha => .ok hs ⟨.ptr ha.1, ha.2⟩
            | none =>
              exact Fine.thenDo (convertPlainPath_good he hns (fun st t hs ht => ih _ st t hs ht) hs h)
                fun st a hs ha => finishPath_good ha hs
    | ref mu lt e =>
      cases h with
      | ref h => exact Fine.thenDo (ih _ st e hs h) fun st a hs ha => .ok hs ⟨.ref ha.1, ha.2⟩
    | array e k =>
      cases h with
      | array h => exact Fine.thenDo (ih _ st e hs h) fun st a hs ha => .ok hs ⟨.array ha.1, ha.2⟩
    | ptr mu e =>
      cases h with
      | ptr h =>
        refine Fine.thenDo (P := fun _ => True) ⟨hs, ensurePointee_panics e, fun _ _ => trivial⟩ fun st _ hs _ => ?_
        exact Fine.thenDo (ih _ st e hs h) fun st a hs ha => .ok hs ⟨.ptr ha.1, ha.2⟩
    | other s => exact .err hs

end Verif
