import Verif.Callbacks

/-!
# C67: the facts used about an item are those bindgen reported for it

The specification speaks of bindgen's reports: which is the last one of its kind for an item, and which item has a
given place in the tree of namespaces.
-/

set_option autoImplicit false

namespace Verif

/-! ## Specification -/

/-- The name a report gives an item. -/
def nameReported (i : Nat) : BindgenEvent → Option String
  | .found j n => if j = i then some (stripBindgenSuffix n) else none
  | .foundMod j n _ => if j = i then some n else none
  | _ => none

/-- The module a report puts an item in. -/
def parentReported (i : Nat) : BindgenEvent → Option Nat
  | .cppName j _ p => if j = i then p else none
  | .foundMod j _ p => if j = i then p else none
  | _ => none

/-- The C++ name a report gives an item. -/
def originalReported (i : Nat) : BindgenEvent → Option String
  | .cppName j o _ => if j = i then o.map stripBindgenSuffix else none
  | _ => none

/-- A report that an item is virtual. -/
def virtualReported (i : Nat) : BindgenEvent → Option Virtualness
  | .virtualness j v => if j = i then some v else none
  | _ => none

/-- A report that an item is not public. -/
def hiddenReported (i : Nat) : BindgenEvent → Option CppVisibility
  | .visibility j v => if j = i ∧ v ≠ .pub then some v else none
  | _ => none

/-- A report that a function is a special member. -/
def specialReported (i : Nat) : BindgenEvent → Option SpecialMemberKind
  | .specialMember j k => if j = i then some k else none
  | _ => none

/-- A report that a function is deleted or defaulted. -/
def explicitReported (i : Nat) : BindgenEvent → Option Explicitness
  | .explicit j e => if j = i then some e else none
  | _ => none

/-- The module which is in no other. -/
def rootReported : BindgenEvent → Option Nat
  | .foundMod j _ none => some j
  | _ => none

/-- The last report of a kind. -/
def lastReport {α : Type} (f : BindgenEvent → Option α) (l : List BindgenEvent) : Option α := (l.filterMap f).getLast?

/-- An item has this place in the tree of namespaces, by the last reports of names and parents. -/
inductive PlacedAt (l : List BindgenEvent) : List String → Nat → Prop
  | root {r} : lastReport rootReported l = some r → PlacedAt l [] r
  | child {ns p n i} : PlacedAt l ns p → lastReport (parentReported i) l = some p → lastReport (nameReported i) l = some n →
      PlacedAt l (ns ++ [n]) i

/-- No two items are in one module under one name. -/
def NoClash (l : List BindgenEvent) : Prop :=
  ∀ i j p n, lastReport (parentReported i) l = some p → lastReport (nameReported i) l = some n →
    lastReport (parentReported j) l = some p → lastReport (nameReported j) l = some n → i = j

/-! ## What is kept -/

/-- What is kept of the reports. -/
structure Callbacks.Keeps (cb : Callbacks) (l : List BindgenEvent) : Prop where
  names : ∀ i, cb.names.get? i = lastReport (nameReported i) l
  mods : ∀ i, cb.mods.get? i = lastReport (parentReported i) l
  originalNames : ∀ i, cb.originalNames.get? i = lastReport (originalReported i) l
  virtuals : ∀ i, cb.virtuals.get? i = lastReport (virtualReported i) l
  visibility : ∀ i, cb.visibility.get? i = lastReport (hiddenReported i) l
  specialMembers : ∀ i, cb.specialMembers.get? i = lastReport (specialReported i) l
  explicitness : ∀ i, cb.explicitness.get? i = lastReport (explicitReported i) l
  rootMod : cb.rootMod = lastReport rootReported l
  discards : ∀ i, i ∈ cb.discards ↔ .discardsTemplateParam i ∈ l
  modsWF : AMap.WF cb.mods

theorem lastReport_snoc {α : Type} (f : BindgenEvent → Option α) (l : List BindgenEvent) (e : BindgenEvent) :
    lastReport f (l ++ [e]) = (f e).or (lastReport f l) := by
  unfold lastReport
  rw [List.filterMap_append]
  cases h : f e with
  | none => simp [h]
  | some a => simp [h]

theorem or_get?_insert {α : Type} {m : AMap Nat α} {i j : Nat} {a : α} {o : Option α} (h : m.get? i = o) :
    (m.insert j a).get? i = (if j = i then some a else none).or o := by
  rw [AMap.get?_insert]
  split <;> simp [h]

theorem or_get?_insert_opt {α : Type} {m : AMap Nat α} {i j : Nat} {x : Option α} {o : Option α} (h : m.get? i = o) :
    (match x with
      | some a => m.insert j a
      | none => m).get? i = (if j = i then x else none).or o := by
  cases x with
  | none => simp [h]
  | some a => exact or_get?_insert h

/-- **C67 (what is kept)**: of all reports of one kind about an item, the last one is kept. -/
theorem reports_kept (l : List BindgenEvent) : (Callbacks.ofEvents l).Keeps l := by
  rw [← List.reverse_reverse l]
  generalize l.reverse = r
  induction r with
  | nil =>
    refine ⟨?_, ?_, ?_, ?_, ?_, ?_, ?_, rfl, ?_, AMap.nil_wf⟩ <;> intro i <;> first | rfl | simp [Callbacks.ofEvents]
  | cons e r ih =>
    have hstep : Callbacks.ofEvents (e :: r).reverse = (Callbacks.ofEvents r.reverse).note e := by
      simp [Callbacks.ofEvents]
    rw [hstep, List.reverse_cons]
    generalize Callbacks.ofEvents r.reverse = cb at ih
    generalize r.reverse = m at ih
    have skip : ∀ {α : Type} (f : BindgenEvent → Option α), f e = none → lastReport f (m ++ [e]) = lastReport f m := by
      intro α f hf
      rw [lastReport_snoc, hf]
      rfl
    have hd : (∀ i, e ≠ .discardsTemplateParam i) → ∀ i, i ∈ cb.discards ↔ .discardsTemplateParam i ∈ m ++ [e] := by
      intro he i
      rw [ih.discards, List.mem_append, List.mem_singleton]
      exact ⟨.inl, fun h => h.resolve_right fun h => he i h.symm⟩
    cases e with
    | cppName j o p =>
      refine ⟨?_, ?_, ?_, ?_, ?_, ?_, ?_, ?_, ?_, ?_⟩
      · intro i; rw [skip _ rfl]; exact ih.names i
      · intro i
        rw [lastReport_snoc]
        have := or_get?_insert_opt (j := j) (x := p) (ih.mods i)
        rw [show (parentReported i (.cppName j o p)) = if j = i then p else none from rfl, ← this]
        cases p <;> rfl
      · intro i
        rw [lastReport_snoc]
        have := or_get?_insert_opt (j := j) (x := o.map stripBindgenSuffix) (ih.originalNames i)
        rw [show (originalReported i (.cppName j o p)) = if j = i then o.map stripBindgenSuffix else none from rfl,
          ← this]
        cases o <;> rfl
      · intro i; rw [skip _ rfl]; exact ih.virtuals i
      · intro i; rw [skip _ rfl]; exact ih.visibility i
      · intro i; rw [skip _ rfl]; exact ih.specialMembers i
      · intro i; rw [skip _ rfl]; exact ih.explicitness i
      · rw [skip _ rfl]; exact ih.rootMod
      · exact hd nofun
      · cases p with
        | none => exact ih.modsWF
        | some p => exact AMap.insert_wf ih.modsWF _ _
    | virtualness j v =>
      refine ⟨?_, ?_, ?_, ?_, ?_, ?_, ?_, ?_, ?_, ih.modsWF⟩
      · intro i; rw [skip _ rfl]; exact ih.names i
      · intro i; rw [skip _ rfl]; exact ih.mods i
      · intro i; rw [skip _ rfl]; exact ih.originalNames i
      · intro i; rw [lastReport_snoc]; exact or_get?_insert (ih.virtuals i)
      · intro i; rw [skip _ rfl]; exact ih.visibility i
      · intro i; rw [skip _ rfl]; exact ih.specialMembers i
      · intro i; rw [skip _ rfl]; exact ih.explicitness i
      · rw [skip _ rfl]; exact ih.rootMod
      · exact hd nofun
    | found j n =>
      refine ⟨?_, ?_, ?_, ?_, ?_, ?_, ?_, ?_, ?_, ih.modsWF⟩
      · intro i; rw [lastReport_snoc]; exact or_get?_insert (ih.names i)
      · intro i; rw [skip _ rfl]; exact ih.mods i
      · intro i; rw [skip _ rfl]; exact ih.originalNames i
      · intro i; rw [skip _ rfl]; exact ih.virtuals i
      · intro i; rw [skip _ rfl]; exact ih.visibility i
      · intro i; rw [skip _ rfl]; exact ih.specialMembers i
      · intro i; rw [skip _ rfl]; exact ih.explicitness i
      · rw [skip _ rfl]; exact ih.rootMod
      · exact hd nofun
    | foundMod j n p =>
      cases p with
      | none =>
        refine ⟨?_, ?_, ?_, ?_, ?_, ?_, ?_, ?_, ?_, ih.modsWF⟩
        · intro i; rw [lastReport_snoc]; exact or_get?_insert (ih.names i)
        · intro i; rw [skip _ (ite_self _)]; exact ih.mods i
        · intro i; rw [skip _ rfl]; exact ih.originalNames i
        · intro i; rw [skip _ rfl]; exact ih.virtuals i
        · intro i; rw [skip _ rfl]; exact ih.visibility i
        · intro i; rw [skip _ rfl]; exact ih.specialMembers i
        · intro i; rw [skip _ rfl]; exact ih.explicitness i
        · rw [lastReport_snoc]; rfl
        · exact hd nofun
      | some p =>
        refine ⟨?_, ?_, ?_, ?_, ?_, ?_, ?_, ?_, ?_, AMap.insert_wf ih.modsWF _ _⟩
        · intro i; rw [lastReport_snoc]; exact or_get?_insert (ih.names i)
        · intro i; rw [lastReport_snoc]; exact or_get?_insert (ih.mods i)
        · intro i; rw [skip _ rfl]; exact ih.originalNames i
        · intro i; rw [skip _ rfl]; exact ih.virtuals i
        · intro i; rw [skip _ rfl]; exact ih.visibility i
        · intro i; rw [skip _ rfl]; exact ih.specialMembers i
        · intro i; rw [skip _ rfl]; exact ih.explicitness i
        · rw [skip _ rfl]; exact ih.rootMod
        · exact hd nofun
    | foundOther j =>
      refine ⟨?_, ?_, ?_, ?_, ?_, ?_, ?_, ?_, ?_, ih.modsWF⟩
      · intro i; rw [skip _ rfl]; exact ih.names i
      · intro i; rw [skip _ rfl]; exact ih.mods i
      · intro i; rw [skip _ rfl]; exact ih.originalNames i
      · intro i; rw [skip _ rfl]; exact ih.virtuals i
      · intro i; rw [skip _ rfl]; exact ih.visibility i
      · intro i; rw [skip _ rfl]; exact ih.specialMembers i
      · intro i; rw [skip _ rfl]; exact ih.explicitness i
      · rw [skip _ rfl]; exact ih.rootMod
      · exact hd nofun
    | visibility j v =>
      have hnote : cb.note (.visibility j v) =
          { cb with visibility := if v = .pub then cb.visibility else cb.visibility.insert j v } := by
        show (if v = .pub then cb else { cb with visibility := cb.visibility.insert j v }) = _
        by_cases hv : v = .pub
        · rw [if_pos hv, if_pos hv]
        · rw [if_neg hv, if_neg hv]
      rw [hnote]
      refine ⟨?_, ?_, ?_, ?_, ?_, ?_, ?_, ?_, ?_, ih.modsWF⟩
      · intro i; rw [skip _ rfl]; exact ih.names i
      · intro i; rw [skip _ rfl]; exact ih.mods i
      · intro i; rw [skip _ rfl]; exact ih.originalNames i
      · intro i; rw [skip _ rfl]; exact ih.virtuals i
      · intro i
        rw [lastReport_snoc]
        show (if v = .pub then cb.visibility else cb.visibility.insert j v).get? i =
          (if j = i ∧ v ≠ .pub then some v else none).or _
        by_cases hv : v = .pub
        · rw [if_pos hv, if_neg (fun h => h.2 hv)]
          exact ih.visibility i
        · rw [if_neg hv, or_get?_insert (ih.visibility i)]
          simp [hv]
      · intro i; rw [skip _ rfl]; exact ih.specialMembers i
      · intro i; rw [skip _ rfl]; exact ih.explicitness i
      · rw [skip _ rfl]; exact ih.rootMod
      · exact hd nofun
    | specialMember j k =>
      refine ⟨?_, ?_, ?_, ?_, ?_, ?_, ?_, ?_, ?_, ih.modsWF⟩
      · intro i; rw [skip _ rfl]; exact ih.names i
      · intro i; rw [skip _ rfl]; exact ih.mods i
      · intro i; rw [skip _ rfl]; exact ih.originalNames i
      · intro i; rw [skip _ rfl]; exact ih.virtuals i
      · intro i; rw [skip _ rfl]; exact ih.visibility i
      · intro i; rw [lastReport_snoc]; exact or_get?_insert (ih.specialMembers i)
      · intro i; rw [skip _ rfl]; exact ih.explicitness i
      · rw [skip _ rfl]; exact ih.rootMod
      · exact hd nofun
    | explicit j e =>
      refine ⟨?_, ?_, ?_, ?_, ?_, ?_, ?_, ?_, ?_, ih.modsWF⟩
      · intro i; rw [skip _ rfl]; exact ih.names i
      · intro i; rw [skip _ rfl]; exact ih.mods i
      · intro i; rw [skip _ rfl]; exact ih.originalNames i
      · intro i; rw [skip _ rfl]; exact ih.virtuals i
      · intro i; rw [skip _ rfl]; exact ih.visibility i
      · intro i; rw [skip _ rfl]; exact ih.specialMembers i
      · intro i; rw [lastReport_snoc]; exact or_get?_insert (ih.explicitness i)
      · rw [skip _ rfl]; exact ih.rootMod
      · exact hd nofun
    | discardsTemplateParam j =>
      refine ⟨?_, ?_, ?_, ?_, ?_, ?_, ?_, ?_, ?_, ih.modsWF⟩
      · intro i; rw [skip _ rfl]; exact ih.names i
      · intro i; rw [skip _ rfl]; exact ih.mods i
      · intro i; rw [skip _ rfl]; exact ih.originalNames i
      · intro i; rw [skip _ rfl]; exact ih.virtuals i
      · intro i; rw [skip _ rfl]; exact ih.visibility i
      · intro i; rw [skip _ rfl]; exact ih.specialMembers i
      · intro i; rw [skip _ rfl]; exact ih.explicitness i
      · rw [skip _ rfl]; exact ih.rootMod
      · intro i
        show i ∈ setInsert cb.discards j ↔ _
        rw [List.mem_append, List.mem_singleton, BindgenEvent.discardsTemplateParam.injEq, ← ih.discards]
        unfold setInsert
        split
        · rename_i hj
          exact ⟨.inl, fun h => h.elim (fun h => h) fun h => by rw [h]; exact hj⟩
        · rw [List.mem_append, List.mem_singleton]

/-! ## Looking an item up -/

theorem foldl_insert_get? {κ α : Type} [DecidableEq κ] (l : List (κ × α)) (m : AMap κ α) (k : κ) :
    (l.foldl (fun m e => m.insert e.1 e.2) m).get? k =
      (((l.filter fun e => e.1 = k).map (·.2)).getLast?).or (m.get? k) := by
  induction l generalizing m with
  | nil => simp
  | cons a l ih =>
    rw [List.foldl_cons, ih, AMap.get?_insert, List.filter_cons]
    by_cases h : a.1 = k
    · simp only [h, decide_true, if_true, List.map_cons]
      cases hl : (l.filter fun e => e.1 = k).map (·.2) with
      | nil => simp
      | cons b r =>
        rw [List.getLast?_cons_cons, List.getLast?_eq_some_getLast (List.cons_ne_nil b r)]
        rfl
    · simp [h]

theorem Callbacks.index_sound {cb : Callbacks} {l : List BindgenEvent} (h : cb.Keeps l) {p : Nat} {n : String} {i : Nat}
    (hi : cb.index.get? (p, n) = some i) :
    lastReport (parentReported i) l = some p ∧ lastReport (nameReported i) l = some n := by
  unfold Callbacks.index at hi
  rw [foldl_insert_get?] at hi
  simp only [AMap.get?_nil, Option.or_none] at hi
  have hm := List.mem_of_getLast? hi
  obtain ⟨e, he, rfl⟩ := List.mem_map.1 hm
  obtain ⟨he, hk⟩ := List.mem_filter.1 he
  obtain ⟨x, hx, hxe⟩ := List.mem_filterMap.1 he
  obtain ⟨m, hm', rfl⟩ := Option.map_eq_some_iff.1 hxe
  rw [decide_eq_true_iff] at hk
  cases hk
  exact ⟨by rw [← h.mods]; exact AMap.mem_get? h.modsWF hx, by rw [← h.names]; exact hm'⟩

theorem Callbacks.index_complete {cb : Callbacks} {l : List BindgenEvent} (h : cb.Keeps l) {p : Nat} {n : String}
    {i : Nat} (hp : lastReport (parentReported i) l = some p) (hn : lastReport (nameReported i) l = some n) :
    ∃ j, cb.index.get? (p, n) = some j := by
  unfold Callbacks.index
  rw [foldl_insert_get?]
  simp only [AMap.get?_nil, Option.or_none]
  cases hl : ((List.filterMap (fun e => Option.map (fun n => ((e.2, n), e.1)) (cb.names.get? e.1)) cb.mods).filter
      fun e => e.1 = (p, n)).map (·.2) with
  | nil =>
    exfalso
    rw [List.map_eq_nil_iff, List.filter_eq_nil_iff] at hl
    refine hl ((p, n), i) (List.mem_filterMap.2 ⟨(i, p), ?_, ?_⟩) (by simp)
    · rw [← h.mods] at hp
      exact AMap.get?_mem hp
    · dsimp only
      rw [h.names, hn]
      rfl
  | cons a r =>
    exact ⟨_, List.getLast?_eq_some_getLast (by simp)⟩

theorem modIdFrom_snoc (m : AMap (Nat × String) Nat) (r : Nat) (ns : List String) (n : String) :
    Callbacks.modIdFrom m r (ns ++ [n]) = (Callbacks.modIdFrom m r ns).bind fun p => m.get? (p, n) := by
  induction ns generalizing r with
  | nil =>
    show ((m.get? (r, n)).bind fun c => some c) = m.get? (r, n)
    simp
  | cons a ns ih =>
    show ((m.get? (r, a)).bind fun c => Callbacks.modIdFrom m c (ns ++ [n])) = _
    cases h : m.get? (r, a) with
    | none => simp [Callbacks.modIdFrom, h]
    | some c => simp [Callbacks.modIdFrom, h, ih]

theorem modIdFrom_placed {cb : Callbacks} {l : List BindgenEvent} (h : cb.Keeps l) {r : Nat}
    (hr : lastReport rootReported l = some r) (ns : List String) (i : Nat)
    (hi : Callbacks.modIdFrom cb.index r ns = some i) : PlacedAt l ns i := by
  rw [← List.reverse_reverse ns] at hi ⊢
  generalize ns.reverse = m at hi ⊢
  induction m generalizing i with
  | nil =>
    cases hi
    exact .root hr
  | cons n m ih =>
    rw [List.reverse_cons, modIdFrom_snoc] at hi
    rw [List.reverse_cons]
    obtain ⟨p, hp, hpi⟩ := Option.bind_eq_some_iff.1 hi
    obtain ⟨h1, h2⟩ := Callbacks.index_sound h hpi
    exact .child (ih p hp) h1 h2

theorem placed_modIdFrom {cb : Callbacks} {l : List BindgenEvent} (h : cb.Keeps l) (hn : NoClash l) {r : Nat}
    (hr : lastReport rootReported l = some r) {ns : List String} {i : Nat} (hi : PlacedAt l ns i) :
    Callbacks.modIdFrom cb.index r ns = some i := by
  induction hi with
  | root hr' =>
    rw [hr] at hr'
    cases hr'
    rfl
  | child _ h1 h2 ih =>
    rw [modIdFrom_snoc, ih]
    obtain ⟨j, hj⟩ := Callbacks.index_complete h h1 h2
    obtain ⟨h3, h4⟩ := Callbacks.index_sound h hj
    show cb.index.get? _ = _
    rw [hj, hn _ _ _ _ h1 h2 h3 h4]

/-- Looking up never fails once the root module is known. -/
theorem lookup_total (l : List BindgenEvent) (q : QName) :
    (Callbacks.ofEvents l).idByName q = none ↔ lastReport rootReported l = none := by
  unfold Callbacks.idByName
  rw [Option.map_eq_none_iff, (reports_kept l).rootMod]

/-- **C67 (looking up)**: an item which is found by a name has that place in the tree. -/
theorem lookup_sound (l : List BindgenEvent) (q : QName) (i : Nat)
    (h : (Callbacks.ofEvents l).idByName q = some (some i)) : PlacedAt l (q.ns ++ [q.name]) i := by
  have hk := reports_kept l
  obtain ⟨r, hr, h⟩ := Option.map_eq_some_iff.1 h
  rw [hk.rootMod] at hr
  refine modIdFrom_placed hk hr _ _ ?_
  rw [modIdFrom_snoc]
  exact h

/-- **C67 (looking up, exactly)**: where no two items of a module share a name, each name finds the one item which has
that place, and nothing else. -/
theorem lookup_exact (l : List BindgenEvent) (hn : NoClash l) (r : Nat) (hr : lastReport rootReported l = some r) (q : QName) :
    ∃ x, (Callbacks.ofEvents l).idByName q = some x ∧ ∀ i, x = some i ↔ PlacedAt l (q.ns ++ [q.name]) i := by
  have hk := reports_kept l
  have hr' := hr
  rw [← hk.rootMod] at hr'
  refine ⟨_, by unfold Callbacks.idByName; rw [hr']; rfl, fun i => ?_⟩
  dsimp only
  rw [← modIdFrom_snoc]
  exact ⟨modIdFrom_placed hk hr _ _, placed_modIdFrom hk hn hr⟩

/-- **C67**: for an item which has a place no other item has, each fact which is used is the last one reported of that
very item; visibility is public unless something else was reported. -/
theorem facts_reported (l : List BindgenEvent) (hn : NoClash l) (ns : List String) (n : String) (i : Nat)
    (h : PlacedAt l (ns ++ [n]) i) :
    (Callbacks.ofEvents l).originalName ⟨ns, n⟩ = some (lastReport (originalReported i) l) ∧
    (Callbacks.ofEvents l).virtualnessOf ⟨ns, n⟩ = some (lastReport (virtualReported i) l) ∧
    (Callbacks.ofEvents l).cppVisibilityOf ⟨ns, n⟩ = some ((lastReport (hiddenReported i) l).getD .pub) ∧
    (Callbacks.ofEvents l).specialMemberOf ⟨ns, n⟩ = some (lastReport (specialReported i) l) ∧
    (Callbacks.ofEvents l).explicitnessOf ⟨ns, n⟩ = some (lastReport (explicitReported i) l) ∧
    (Callbacks.ofEvents l).discardsOf ⟨ns, n⟩ = some (decide (.discardsTemplateParam i ∈ l)) := by
  have hk := reports_kept l
  have hroot : ∀ ns i, PlacedAt l ns i → ∃ r, lastReport rootReported l = some r := by
    intro ns i h
    induction h with
    | root hr => exact ⟨_, hr⟩
    | child _ _ _ ih => exact ih
  obtain ⟨r, hr⟩ := hroot _ _ h
  obtain ⟨x, hx, he⟩ := lookup_exact l hn r hr ⟨ns, n⟩
  have hx' : (Callbacks.ofEvents l).idByName ⟨ns, n⟩ = some (some i) := by
    rw [hx, (he i).2 h]
  unfold Callbacks.originalName Callbacks.virtualnessOf Callbacks.cppVisibilityOf Callbacks.specialMemberOf
    Callbacks.explicitnessOf Callbacks.discardsOf
  rw [hx']
  simp only [Option.map_some, Option.bind_some, hk.originalNames, hk.virtuals, hk.visibility, hk.specialMembers,
    hk.explicitness, hk.discards, true_and]

/-- For a name which no item has, nothing is known, and visibility is taken to be public. -/
theorem facts_unknown (l : List BindgenEvent) (r : Nat) (hr : lastReport rootReported l = some r) (ns : List String)
    (n : String) (h : ∀ i, ¬ PlacedAt l (ns ++ [n]) i) :
    (Callbacks.ofEvents l).originalName ⟨ns, n⟩ = some none ∧
    (Callbacks.ofEvents l).virtualnessOf ⟨ns, n⟩ = some none ∧
    (Callbacks.ofEvents l).cppVisibilityOf ⟨ns, n⟩ = some .pub ∧
    (Callbacks.ofEvents l).specialMemberOf ⟨ns, n⟩ = some none ∧
    (Callbacks.ofEvents l).explicitnessOf ⟨ns, n⟩ = some none ∧
    (Callbacks.ofEvents l).discardsOf ⟨ns, n⟩ = some false := by
  have hx : (Callbacks.ofEvents l).idByName ⟨ns, n⟩ = some none := by
    cases hx : (Callbacks.ofEvents l).idByName ⟨ns, n⟩ with
    | none =>
      rw [(lookup_total l _).1 hx] at hr
      cases hr
    | some x =>
      cases x with
      | none => rfl
      | some i => exact absurd (lookup_sound l _ i hx) (h i)
  unfold Callbacks.originalName Callbacks.virtualnessOf Callbacks.cppVisibilityOf Callbacks.specialMemberOf
    Callbacks.explicitnessOf Callbacks.discardsOf
  rw [hx]
  exact ⟨rfl, rfl, rfl, rfl, rfl, rfl⟩

/-! ## Examples -/

/-- A namespace `n` with a class `C` which has a deleted function. -/
def exEvents : List BindgenEvent :=
  [.foundMod 0 "root" none, .foundMod 1 "n" (some 0), .cppName 2 (some "C") (some 1), .found 2 "C",
    .visibility 2 .priv, .visibility 2 .pub, .cppName 3 (some "f_bindgen_original") (some 1),
    .found 3 "C_f_bindgen_original", .explicit 3 .deleted, .specialMember 3 .destructor, .discardsTemplateParam 2]

/-- The item a report is about. -/
def BindgenEvent.item : BindgenEvent → Nat
  | .cppName i _ _ | .virtualness i _ | .found i _ | .foundMod i _ _ | .foundOther i | .visibility i _ | .specialMember i _
  | .explicit i _ | .discardsTemplateParam i => i

theorem name_reported_item {l : List BindgenEvent} {i : Nat} {n : String} (h : lastReport (nameReported i) l = some n) :
    i ∈ l.map (·.item) := by
  obtain ⟨e, he, hn⟩ := List.mem_filterMap.1 (List.mem_of_getLast? h)
  refine List.mem_map.2 ⟨e, he, ?_⟩
  cases e with
  | found j m =>
    simp only [nameReported] at hn
    split at hn
    · rename_i hj; exact hj
    · cases hn
  | foundMod j m p =>
    simp only [nameReported] at hn
    split at hn
    · rename_i hj; exact hj
    · cases hn
  | _ => cases hn

/-- To see that there is no clash, look at the items which were reported. -/
theorem noClash_of (l : List BindgenEvent)
    (h : ∀ i ∈ l.map (·.item), ∀ j ∈ l.map (·.item), lastReport (nameReported i) l = lastReport (nameReported j) l →
      lastReport (parentReported i) l = lastReport (parentReported j) l →
      lastReport (nameReported i) l = none ∨ lastReport (parentReported i) l = none ∨ i = j) : NoClash l := by
  intro i j p n hp hn hp' hn'
  rcases h i (name_reported_item hn) j (name_reported_item hn') (by rw [hn, hn']) (by rw [hp, hp']) with h | h | h
  · rw [hn] at h; cases h
  · rw [hp] at h; cases h
  · exact h

/-- The example meets the hypotheses of `facts_reported`. -/
example : NoClash exEvents := noClash_of _ (by decide +kernel)

/-- The example meets the hypotheses of `facts_reported`: the item is where it should be. -/
example : PlacedAt exEvents ["n", "C_f"] 3 :=
  .child (ns := ["n"]) (.child (ns := []) (.root (r := 0) (by decide +kernel)) (i := 1) (by decide +kernel) (by decide +kernel))
    (by decide +kernel) (by decide +kernel)

example : (Callbacks.ofEvents exEvents).explicitnessOf ⟨["n"], "C_f"⟩ = some (some .deleted) ∧
    (Callbacks.ofEvents exEvents).originalName ⟨["n"], "C_f"⟩ = some (some "f") ∧
    (Callbacks.ofEvents exEvents).cppVisibilityOf ⟨["n"], "C"⟩ = some .priv ∧
    (Callbacks.ofEvents exEvents).discardsOf ⟨["n"], "C"⟩ = some true := by decide +kernel

/-- **C67 is false without `NoClash`**: bindgen numbers overloads, so `f(int)` is called `f_bindgen_original1`, which is
shortened to `f1`; where there is also a function `f1`, which is deleted, the facts of `f1` are used for both. -/
theorem facts_reported_false : ∃ l : List BindgenEvent, ∃ i j,
    PlacedAt l ["f1"] i ∧ PlacedAt l ["f1"] j ∧
    lastReport (explicitReported i) l = none ∧ lastReport (explicitReported j) l = some .deleted ∧
    lastReport (originalReported i) l = some "f" ∧
    (Callbacks.ofEvents l).explicitnessOf ⟨[], "f1"⟩ = some (some .deleted) ∧
    (Callbacks.ofEvents l).originalName ⟨[], "f1"⟩ = some none := by
  refine ⟨[.foundMod 0 "root" none, .found 1 "f_bindgen_original", .cppName 1 none (some 0),
    .found 2 "f_bindgen_original1", .cppName 2 (some "f_bindgen_original") (some 0), .found 3 "f1_bindgen_original",
    .cppName 3 none (some 0), .explicit 3 .deleted], 2, 3, ?_, ?_, ?_⟩
  · exact .child (ns := []) (.root (r := 0) (by decide +kernel)) (by decide +kernel) (by decide +kernel)
  · exact .child (ns := []) (.root (r := 0) (by decide +kernel)) (by decide +kernel) (by decide +kernel)
  · decide +kernel

end Verif
