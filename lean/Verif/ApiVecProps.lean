import Verif.ApiVec

/-!
# C01 and the wrapper half of C04

The specification of the collection is a finite map from qualified names to items (`ApiVec.get?`),
with a list of keys; `push` is specified on that map by `specPush`.
-/

set_option autoImplicit false

namespace Verif
variable {T S F T' S' F' : Type}

/-- What users rely on: at most one entry per name, and the index lists exactly the names of the
entries. -/
def ApiVec.Inv (v : ApiVec T S F) : Prop :=
  (v.apis.map (·.name)).Nodup ∧ v.names = v.apis.map (·.name)

/-- The item stored under a name. -/
def ApiVec.get? (v : ApiVec T S F) (n : QName) : Option (Api T S F) :=
  v.apis.find? fun a => a.name = n

/-- Specification of insertion for the item's own name: a first item is stored; a later
ignored-item marker is dropped; any other later item turns the entry into a duplicate marker. -/
def specMerge (old : Option (Api T S F)) (a : Api T S F) : Option (Api T S F) :=
  match old with
  | none => some a
  | some b => if a.isIgnored then some b else
      some (.ignoredItem ⟨a.name, none⟩ .duplicateItemsFoundInParsing
        (some (ErrorContext.newForItem a.name.name)))

/-! ## Helper lemmas -/

theorem foldl_setInsert_append {α : Type} [DecidableEq α] (acc l : List α)
    (h : (acc ++ l).Nodup) : l.foldl setInsert acc = acc ++ l := by
  induction l generalizing acc with
  | nil => simp
  | cons a r ih =>
    have ha : a ∉ acc := by
      rw [List.nodup_append] at h
      intro hx
      exact h.2.2 a hx a (by simp) rfl
    rw [List.foldl_cons, setInsert, if_neg ha, ih]
    · simp
    · simpa using h

theorem foldl_setInsert_nil {α : Type} [DecidableEq α] (l : List α)
    (h : l.Nodup) : l.foldl setInsert [] = l := by
  simpa using foldl_setInsert_append [] l (by simpa using h)

namespace ApiVec

theorem inv_empty : ({} : ApiVec T S F).Inv := by simp [Inv]

theorem retain_inv {v : ApiVec T S F} (h : v.Inv) (p : Api T S F → Bool) : (v.retain p).Inv := by
  have hn : ((v.apis.filter p).map (·.name)).Nodup :=
    (List.Sublist.map _ List.filter_sublist).nodup h.1
  exact ⟨hn, foldl_setInsert_nil _ hn⟩

theorem alreadyContains_iff {v : ApiVec T S F} (h : v.Inv) (n : QName) :
    v.alreadyContains n = true ↔ ∃ a ∈ v.apis, a.name = n := by
  simp [alreadyContains, h.2]

theorem pushNew_inv {v : ApiVec T S F} (h : v.Inv) (a : Api T S F)
    (hn : v.alreadyContains a.name = false) : (v.pushNew a).Inv := by
  have hx : a.name ∉ v.names := by simpa [alreadyContains] using hn
  constructor
  · simp only [pushNew, List.map_append, List.map_cons, List.map_nil]
    rw [List.nodup_append]
    refine ⟨h.1, by simp, ?_⟩
    intro x hx' y hy
    simp at hy; subst hy
    rintro rfl
    exact hx (h.2 ▸ hx')
  · simp only [pushNew, setInsert, if_neg hx, List.map_append, List.map_cons, List.map_nil]
    rw [h.2]

theorem retain_ne_not_contains (v : ApiVec T S F) (h : v.Inv) (n : QName) :
    (v.retain fun b => b.name ≠ n).alreadyContains n = false := by
  cases hc : (v.retain fun b => b.name ≠ n).alreadyContains n with
  | false => rfl
  | true =>
    rw [alreadyContains_iff (retain_inv h _)] at hc
    obtain ⟨a, ha, hn⟩ := hc
    simp [retain, hn] at ha

theorem push_inv {v : ApiVec T S F} (h : v.Inv) (a : Api T S F) : (v.push a).Inv := by
  unfold push
  split
  · split
    · exact h
    · unfold pushMarker
      have e : (duplicateMarker a.name : Api T S F).name = a.name := rfl
      rw [e, retain_ne_not_contains v h]
      exact pushNew_inv (retain_inv h _) _ (by rw [e]; exact retain_ne_not_contains v h _)
  · rename_i hc
    exact pushNew_inv h a (by simpa using hc)

theorem extend_inv {v : ApiVec T S F} (h : v.Inv) (l : List (Api T S F)) : (v.extend l).Inv := by
  induction l generalizing v with
  | nil => exact h
  | cons a r ih => exact ih (push_inv h a)

theorem push_apis {v : ApiVec T S F} (h : v.Inv) (a : Api T S F) : (v.push a).apis =
    if ∃ b ∈ v.apis, b.name = a.name then
      if a.isIgnored then v.apis
      else v.apis.filter (fun b => b.name ≠ a.name) ++ [duplicateMarker a.name]
    else v.apis ++ [a] := by
  unfold push
  by_cases hc : v.alreadyContains a.name = true
  · rw [if_pos hc, if_pos ((alreadyContains_iff h _).1 hc)]
    unfold Api.discardDuplicates
    split
    · rfl
    · unfold pushMarker
      have e : (duplicateMarker a.name : Api T S F).name = a.name := rfl
      rw [e, retain_ne_not_contains v h]
      simp [pushNew, retain]
  · rw [if_neg hc, if_neg (fun hx => hc ((alreadyContains_iff h _).2 hx))]
    rfl

theorem get?_none_iff (v : ApiVec T S F) (n : QName) :
    v.get? n = none ↔ ¬ ∃ a ∈ v.apis, a.name = n := by
  simp [get?]

theorem get?_some_iff {v : ApiVec T S F} (h : v.Inv) (n : QName) (a : Api T S F) :
    v.get? n = some a ↔ a ∈ v.apis ∧ a.name = n := by
  constructor
  · intro hg
    exact ⟨List.mem_of_find?_eq_some hg, by simpa using List.find?_some hg⟩
  · rintro ⟨ha, rfl⟩
    cases hg : v.get? a.name with
    | none => exact absurd ⟨a, ha, rfl⟩ ((get?_none_iff v _).1 hg)
    | some b =>
      have hb := List.mem_of_find?_eq_some hg
      have hbn : b.name = a.name := by simpa using List.find?_some hg
      have : ∀ (l : List (Api T S F)), (l.map (·.name)).Nodup → a ∈ l → b ∈ l → b = a := by
        intro l
        induction l with
        | nil => intro _ hx; cases hx
        | cons c l ih =>
          intro hn hx hy
          simp only [List.map_cons, List.nodup_cons, List.mem_map, not_exists, not_and] at hn
          rcases List.mem_cons.1 hx with rfl | hx' <;> rcases List.mem_cons.1 hy with rfl | hy'
          · rfl
          · exact absurd hbn (hn.1 b hy')
          · exact absurd hbn.symm (hn.1 a hx')
          · exact ih hn.2 hx' hy'
      rw [this v.apis h.1 ha hb]

theorem find?_filter_ne (l : List (Api T S F)) (m n : QName) (h : n ≠ m) :
    (l.filter (fun b => b.name ≠ m)).find? (fun a => a.name = n) = l.find? fun a => a.name = n := by
  induction l with
  | nil => rfl
  | cons a r ih =>
    by_cases hm : a.name = m
    · have hn : ¬ a.name = n := fun e => h (e ▸ hm)
      simp only [List.filter_cons, hm, ne_eq, not_true_eq_false, decide_false, Bool.false_eq_true,
        if_false, List.find?_cons]
      have : ¬ m = n := fun e => h e.symm
      simp only [this, decide_false]
      simpa using ih
    · simp only [ne_eq, decide_not] at ih
      by_cases hn : a.name = n
      · simp [hn, h]
      · simp [hm, hn, ih]

end ApiVec

/-! ## C01 -/

/-- The operations through which the engine changes a collection. -/
inductive ApiVecOp (T S F : Type) where
  | push (a : Api T S F)
  | extend (l : List (Api T S F))
  | append (more : ApiVec T S F)
  | retain (p : Api T S F → Bool)

/-- Effect of one operation on the collection operated on. -/
def ApiVecOp.run (v : ApiVec T S F) : ApiVecOp T S F → ApiVec T S F
  | .push a => v.push a
  | .extend l => v.extend l
  | .append more => (v.append more).1
  | .retain p => v.retain p

/-- **C01 (uniqueness)**: after any sequence of operations on a new collection, no two entries have the
same name and the index lists exactly the names of the entries, in order. The appended collections
are arbitrary: they need not satisfy the invariant. -/
theorem apivec_unique (ops : List (ApiVecOp T S F)) :
    (ops.foldl ApiVecOp.run {}).Inv := by
  have : ∀ v : ApiVec T S F, v.Inv → (ops.foldl ApiVecOp.run v).Inv := by
    induction ops with
    | nil => exact fun v h => h
    | cons op ops ih =>
      intro v h
      refine ih _ ?_
      cases op with
      | push a => exact ApiVec.push_inv h a
      | extend l => exact ApiVec.extend_inv h l
      | append m => exact ApiVec.extend_inv h _
      | retain p => exact ApiVec.retain_inv h p
  exact this {} ApiVec.inv_empty

/-- **C01 (insertion)**: inserting an item changes nothing under other names, and under its own name
does what `specMerge` says. -/
theorem apivec_push_spec (v : ApiVec T S F) (h : v.Inv) (a : Api T S F) (n : QName) :
    (v.push a).get? n = if n = a.name then specMerge (v.get? n) a else v.get? n := by
  unfold ApiVec.get?
  rw [ApiVec.push_apis h]
  by_cases hn : n = a.name
  · subst hn
    rw [if_pos rfl]
    by_cases hc : ∃ b ∈ v.apis, b.name = a.name
    · rw [if_pos hc]
      cases hg : v.apis.find? (fun b => b.name = a.name) with
      | none => exact absurd hc ((ApiVec.get?_none_iff v _).1 hg)
      | some b =>
        unfold specMerge
        by_cases hi : a.isIgnored = true
        · simp [hi, hg]
        · simp only [hi, Bool.false_eq_true, if_false, List.find?_append]
          have : (v.apis.filter (fun b => b.name ≠ a.name)).find? (fun b => b.name = a.name) = none := by
            simp
          rw [this]
          simp [ApiVec.duplicateMarker, Api.name, Api.nameInfo, ApiName.ofQName]
    · rw [if_neg hc]
      have hg : v.apis.find? (fun b => b.name = a.name) = none := (ApiVec.get?_none_iff v _).2 hc
      rw [hg, List.find?_append, hg]
      simp [specMerge]
  · rw [if_neg hn]
    have hn' : ¬ a.name = n := fun e => hn e.symm
    split
    · split
      · rfl
      · rw [List.find?_append, ApiVec.find?_filter_ne _ _ _ hn]
        have : ([ApiVec.duplicateMarker a.name] : List (Api T S F)).find? (fun b => b.name = n) = none := by
          have e : (ApiVec.duplicateMarker a.name : Api T S F).name = a.name := rfl
          simp [e, hn']
        rw [this]; simp
    · rw [List.find?_append]; simp [hn']

/-- **C01 (entries in order)**: the surviving entries keep their relative order, and a new or replaced
entry is last. -/
theorem apivec_push_order (v : ApiVec T S F) (h : v.Inv) (a : Api T S F) :
    ∃ l, (v.push a).apis = v.apis.filter (fun b => b.name ≠ a.name) ++ l ∧ l.length ≤ 1 ∨
      (v.push a).apis = v.apis := by
  rw [ApiVec.push_apis h]
  split
  · split
    · exact ⟨[], Or.inr rfl⟩
    · exact ⟨_, Or.inl ⟨rfl, by simp⟩⟩
  · rename_i hc
    refine ⟨[a], Or.inl ⟨?_, by simp⟩⟩
    congr 1
    symm
    rw [List.filter_eq_self]
    intro b hb
    simp only [ne_eq, decide_not, Bool.not_eq_eq_eq_not, Bool.not_true, decide_eq_false_iff_not]
    exact fun e => hc ⟨b, hb, e⟩

/-- **C01 (bulk insertion)**: what is stored under a name after inserting any list of items depends
only on the items of that name, in their order. -/
theorem apivec_extend_spec (v : ApiVec T S F) (h : v.Inv) (l : List (Api T S F)) (n : QName) :
    (v.extend l).get? n = (l.filter fun a => a.name = n).foldl specMerge (v.get? n) := by
  induction l generalizing v with
  | nil => rfl
  | cons a r ih =>
    have := ih (v.push a) (ApiVec.push_inv h a)
    show ((v.push a).extend r).get? n = _
    rw [this, apivec_push_spec v h]
    by_cases hn : n = a.name
    · subst hn; simp
    · have : ¬ a.name = n := fun e => hn e.symm
      simp [hn, this]

theorem foldl_specMerge_ignored (l : List (Api T S F)) (b : Api T S F)
    (h : ∀ a ∈ l, a.isIgnored = true) : l.foldl specMerge (some b) = some b := by
  induction l with
  | nil => rfl
  | cons a r ih =>
    have ha := h a (by simp)
    simp only [List.foldl_cons, specMerge, ha, if_true]
    exact ih (fun x hx => h x (by simp [hx]))

theorem foldl_specMerge_isIgnored (l : List (Api T S F)) (b c : Api T S F) (hb : b.isIgnored = true)
    (h : l.foldl specMerge (some b) = some c) : c.isIgnored = true := by
  induction l generalizing b with
  | nil => cases h; exact hb
  | cons a r ih =>
    simp only [List.foldl_cons, specMerge] at h
    split at h
    · exact ih b hb h
    · exact ih _ rfl h

/-- **C01 (what survives bulk insertion)**: a real item (not a marker) is stored under a name exactly
when it is the first item of that name and all later ones of that name are ignored-item markers. -/
theorem apivec_from_iter_real_iff (l : List (Api T S F)) (a : Api T S F) (ha : a.isIgnored = false) :
    (ApiVec.fromIter l).get? a.name = some a ↔
      ∃ rest, (l.filter fun b => b.name = a.name) = a :: rest ∧ ∀ b ∈ rest, b.isIgnored = true := by
  unfold ApiVec.fromIter
  rw [apivec_extend_spec _ ApiVec.inv_empty]
  have e : ({} : ApiVec T S F).get? a.name = none := rfl
  rw [e]
  generalize l.filter (fun b => b.name = a.name) = m
  constructor
  · intro h
    cases m with
    | nil => simp at h
    | cons b r =>
      simp only [List.foldl_cons] at h
      have hb : specMerge none b = some b := rfl
      rw [hb] at h
      by_cases hr : ∀ x ∈ r, x.isIgnored = true
      · rw [foldl_specMerge_ignored r b hr] at h
        cases h; exact ⟨r, rfl, hr⟩
      · exfalso
        have : ∀ (r : List (Api T S F)) (b : Api T S F), ¬ (∀ x ∈ r, x.isIgnored = true) →
            r.foldl specMerge (some b) = some a → False := by
          intro r
          induction r with
          | nil => intro b hx; exact absurd (by simp) hx
          | cons c r ih =>
            intro b hx h
            simp only [List.foldl_cons, specMerge] at h
            by_cases hc : c.isIgnored = true
            · rw [if_pos hc] at h
              exact ih b (fun hy => hx (by
                intro x hxm; rcases List.mem_cons.1 hxm with rfl | hxm
                · exact hc
                · exact hy x hxm)) h
            · rw [if_neg hc] at h
              have := foldl_specMerge_isIgnored r _ a rfl h
              rw [ha] at this; cases this
        exact this r b hr h
  · rintro ⟨rest, rfl, hr⟩
    simp only [List.foldl_cons]
    exact foldl_specMerge_ignored rest a hr

/-- Non-trivial instance: two functions of one name leave one marker, a third item is untouched. -/
example : let f : NullApi := .function ⟨⟨[], "f"⟩, none⟩ {} ()
    let g : NullApi := .enum ⟨⟨[], "g"⟩, none⟩ "A"
    (ApiVec.fromIter [f, g, f]).apis =
      [g, .ignoredItem ⟨⟨[], "f"⟩, none⟩ .duplicateItemsFoundInParsing
        (some (ErrorContext.newForItem "f"))] := by
  intro f g
  rfl

/-- `append` leaves the drained source with a stale index: an item later inserted into the *source*
is taken for a duplicate and replaced by a marker although nothing of that name is stored. No caller
in the engine reuses a drained source. -/
theorem apivec_append_source_stale_witness :
    ∃ v m : ApiVec Unit Unit Unit, v.Inv ∧ m.Inv ∧ ¬ (v.append m).2.Inv ∧
      ∃ a : NullApi, a.isIgnored = false ∧ (v.append m).2.apis = [] ∧
        ((v.append m).2.push a).apis ≠ [a] := by
  let a : NullApi := .enum ⟨⟨[], "g"⟩, none⟩ "A"
  refine ⟨{}, ApiVec.fromIter [a], ApiVec.inv_empty, ApiVec.extend_inv ApiVec.inv_empty _, ?_, a, rfl, rfl, ?_⟩
  · rintro ⟨-, h⟩; exact absurd h (by decide)
  · intro h
    have := congrArg (fun l => l.map (·.isIgnored)) h
    exact absurd this (by decide)

/-! ## C04: the wrappers -/

/-- The names stored in a collection. -/
def ApiVec.nameList (v : ApiVec T S F) : List QName := v.apis.map (·.name)

theorem mem_nameList_iff (v : ApiVec T S F) (n : QName) :
    n ∈ v.nameList ↔ v.get? n ≠ none := by
  rw [Ne, ApiVec.get?_none_iff]
  simp [ApiVec.nameList]

theorem foldl_specMerge_some (l : List (Api T S F)) (o : Option (Api T S F)) :
    l.foldl specMerge o = none ↔ o = none ∧ l = [] := by
  induction l generalizing o with
  | nil => simp
  | cons a r ih =>
    simp only [List.foldl_cons, ih]
    cases o with
    | none => simp [specMerge]
    | some b => by_cases h : a.isIgnored = true <;> simp [specMerge, h]

/-- **C04 (insertion loses no name)**: after inserting a list, the stored names are exactly the old ones
and those of the list. -/
theorem apivec_extend_names (v : ApiVec T S F) (h : v.Inv) (l : List (Api T S F)) (n : QName) :
    n ∈ (v.extend l).nameList ↔ n ∈ v.nameList ∨ ∃ a ∈ l, a.name = n := by
  rw [mem_nameList_iff, mem_nameList_iff, apivec_extend_spec v h, Ne, foldl_specMerge_some]
  by_cases hv : v.get? n = none
  · simp [hv]
  · simp [hv]

/-- The callback of a wrapper keeps names: a success includes an item of the input's name. -/
def KeepsName {A B ε : Type} (nameA : A → QName) (nameB : B → QName) (f : A → Except ε (List B)) : Prop :=
  ∀ a l, f a = .ok l → ∃ b ∈ l, nameB b = nameA a

/-- **C04 (`convert_item_apis`)**: every input name is present afterwards, provided a *successful*
callback keeps its item; failures need no proviso. -/
theorem convert_item_apis_names (f : Api T S F → Except Err (List (Api T' S' F')))
    (ins : ApiVec T S F) (out : ApiVec T' S' F') (ho : out.Inv)
    (hk : KeepsName Api.name Api.name f) :
    ∀ n, n ∈ ins.nameList → n ∈ (convertItemApis f ins out).nameList := by
  intro n hn
  unfold convertItemApis
  rw [apivec_extend_names out ho]
  right
  obtain ⟨a, ha, rfl⟩ := List.mem_map.1 hn
  cases hf : f a with
  | ok l =>
    obtain ⟨b, hb, e⟩ := hk a l hf
    exact ⟨b, List.mem_flatMap.2 ⟨a, ha, by rw [hf]; exact hb⟩, e⟩
  | error e =>
    exact ⟨_, List.mem_flatMap.2 ⟨a, ha, by rw [hf]; exact List.mem_singleton.2 rfl⟩, rfl⟩

/-- **C04 (`convert_item_apis`, nothing invented)**: a name present afterwards was there before, or is
the name of an input item, or comes from a successful callback. -/
theorem convert_item_apis_no_invention (f : Api T S F → Except Err (List (Api T' S' F')))
    (ins : ApiVec T S F) (out : ApiVec T' S' F') (ho : out.Inv) (n : QName)
    (h : n ∈ (convertItemApis f ins out).nameList) :
    n ∈ out.nameList ∨ n ∈ ins.nameList ∨ ∃ a ∈ ins.apis, ∃ l, f a = .ok l ∧ ∃ b ∈ l, b.name = n := by
  unfold convertItemApis at h
  rw [apivec_extend_names out ho] at h
  rcases h with h | ⟨b, hb, e⟩
  · exact Or.inl h
  · obtain ⟨a, ha, hb⟩ := List.mem_flatMap.1 hb
    cases hf : f a with
    | ok l => rw [hf] at hb; exact Or.inr (Or.inr ⟨a, ha, l, hf, b, hb, e⟩)
    | error x =>
      rw [hf] at hb
      simp only [apiOrError, List.mem_singleton] at hb
      subst hb
      exact Or.inr (Or.inl (List.mem_map.2 ⟨a, ha, e⟩))

/-- One item converts to one item of its name or fails: the shape of all checks which only filter. -/
def OneForOne {ε : Type} (f : Api T S F → Except ε (List (Api T' S' F'))) : Prop :=
  ∀ a l, f a = .ok l → ∃ b, l = [b] ∧ b.name = a.name

theorem flatMap_filter_one {α β : Type} (na : α → QName) (nb : β → QName) (g : α → β)
    (hg : ∀ a, nb (g a) = na a) (l : List α) (hn : (l.map na).Nodup) (a : α) (ha : a ∈ l) :
    (l.map g).filter (fun b => nb b = na a) = [g a] := by
  induction l with
  | nil => cases ha
  | cons x r ih =>
    simp only [List.map_cons, List.nodup_cons] at hn
    rcases List.mem_cons.1 ha with rfl | ha'
    · have : (r.map g).filter (fun b => nb b = na a) = [] := by
        rw [List.filter_eq_nil_iff]
        intro b hb
        obtain ⟨y, hy, rfl⟩ := List.mem_map.1 hb
        simp only [hg, decide_eq_true_eq]
        intro e
        exact hn.1 (List.mem_map.2 ⟨y, hy, e⟩)
      simp only [List.map_cons, List.filter_cons, hg, decide_true, if_true]
      rw [this]
    · have hx : ¬ na x = na a := fun e => hn.1 (List.mem_map.2 ⟨a, ha', e.symm⟩)
      simp only [List.map_cons, List.filter_cons, hg, hx, decide_false, Bool.false_eq_true, if_false]
      exact ih hn.2 ha'

/-- What a filtering check leaves in place of an item. -/
def outcome (f : Api T S F → Except Err (List (Api T' S' F'))) (a : Api T S F) : Api T' S' F' :=
  match f a with
  | .ok (b :: _) => b
  | .ok [] => .ignoredItem a.nameInfo (.other "unreachable") none
  | .error e => .ignoredItem a.nameInfo e (some (ErrorContext.newForItem a.name.name))

theorem convertItemApis_eq_map (f : Api T S F → Except Err (List (Api T' S' F'))) (hf : OneForOne f)
    (ins : ApiVec T S F) (out : ApiVec T' S' F') :
    convertItemApis f ins out = out.extend (ins.apis.map (outcome f)) := by
  unfold convertItemApis
  congr 1
  have e : ins.apis.map (outcome f) = ins.apis.flatMap fun a => [outcome f a] := by
    rw [List.map_eq_flatMap]
  rw [e, List.flatMap_def, List.flatMap_def]
  congr 1
  apply List.map_congr_left
  intro a _
  unfold outcome
  cases h : f a with
  | error e => rfl
  | ok l =>
    obtain ⟨b, rfl, -⟩ := hf a l h
    rfl

theorem outcome_name (f : Api T S F → Except Err (List (Api T' S' F'))) (hf : OneForOne f)
    (a : Api T S F) : (outcome f a).name = a.name := by
  unfold outcome
  cases h : f a with
  | error e => rfl
  | ok l =>
    obtain ⟨b, rfl, hb⟩ := hf a l h
    exact hb

theorem extend_fresh_apis (v : ApiVec T S F) (hv : v.Inv) (l : List (Api T S F))
    (h : (v.nameList ++ l.map (·.name)).Nodup) : (v.extend l).apis = v.apis ++ l := by
  induction l generalizing v with
  | nil => simp [ApiVec.extend]
  | cons a r ih =>
    have hfresh : ¬ ∃ b ∈ v.apis, b.name = a.name := by
      rintro ⟨b, hb, e⟩
      rw [List.nodup_append] at h
      exact h.2.2 a.name (List.mem_map.2 ⟨b, hb, e⟩) a.name (by simp) rfl
    have hp : (v.push a).apis = v.apis ++ [a] := by rw [ApiVec.push_apis hv, if_neg hfresh]
    show ((v.push a).extend r).apis = _
    rw [ih _ (ApiVec.push_inv hv a)]
    · rw [hp]; simp
    · unfold ApiVec.nameList; rw [hp]
      unfold ApiVec.nameList at h
      simpa using h

/-- **C04 (filtering checks)**: a check which passes or fails each item, run into a new collection,
leaves exactly one entry per input item, in order: the item it returned, or a marker of the same name
carrying the error and pointing to the item. -/
theorem convert_item_apis_one_for_one (f : Api T S F → Except Err (List (Api T' S' F')))
    (hf : OneForOne f) (ins : ApiVec T S F) (hi : ins.Inv) :
    (convertItemApis f ins {}).apis = ins.apis.map (outcome f) := by
  rw [convertItemApis_eq_map f hf]
  rw [extend_fresh_apis _ ApiVec.inv_empty]
  · simp
  · have : ((ins.apis.map (outcome f)).map (·.name)) = ins.apis.map (·.name) := by
      rw [List.map_map]
      apply List.map_congr_left
      intro a _
      exact outcome_name f hf a
    simp only [ApiVec.nameList, List.map_nil, List.nil_append]
    rw [this]; exact hi.1

theorem flatMapM_mem {σ α β : Type} (f : σ → α → σ × List β) (s : σ) (l : List α) :
    (∀ a ∈ l, ∃ s', ∀ b ∈ (f s' a).2, b ∈ (flatMapM f s l).2) ∧
    (∀ b ∈ (flatMapM f s l).2, ∃ a ∈ l, ∃ s', b ∈ (f s' a).2) := by
  induction l generalizing s with
  | nil => simp [flatMapM]
  | cons x r ih =>
    obtain ⟨h1, h2⟩ := ih (f s x).1
    constructor
    · intro a ha
      rcases List.mem_cons.1 ha with rfl | ha
      · exact ⟨s, fun b hb => by simp [flatMapM, hb]⟩
      · obtain ⟨s', hs⟩ := h1 a ha
        exact ⟨s', fun b hb => by simp [flatMapM, hs b hb]⟩
    · intro b hb
      simp only [flatMapM, List.mem_append] at hb
      rcases hb with hb | hb
      · exact ⟨x, by simp, s, hb⟩
      · obtain ⟨a, ha, s', hs⟩ := h2 b hb
        exact ⟨a, by simp [ha], s', hs⟩

/-- The four conversions of a phase keep names: a success includes an item of the input's name. -/
def Conversions.KeepName {σ : Type} (c : Conversions σ T S F T' S' F') : Prop :=
  (∀ s n f a l, (c.func s n f a).2 = .ok l → ∃ b ∈ l, b.name = n.name) ∧
  (∀ s n d a l, (c.struct s n d a).2 = .ok l → ∃ b ∈ l, b.name = n.name) ∧
  (∀ s n i l, (c.enum s n i).2 = .ok l → ∃ b ∈ l, b.name = n.name) ∧
  (∀ s n i o a l, (c.typedef s n i o a).2 = .ok l → ∃ b ∈ l, b.name = n.name)

theorem convertApi_keeps {σ : Type} (c : Conversions σ T S F T' S' F') (hk : c.KeepName) (s : σ)
    (a : Api T S F) (l : List (Api T' S' F')) (h : (convertApi c s a).2 = .ok l) :
    ∃ b ∈ l, b.name = a.name := by
  obtain ⟨h1, h2, h3, h4⟩ := hk
  cases a <;> simp only [convertApi] at h
  case function n f a => exact h1 _ _ _ _ _ h
  case struct n d a => exact h2 _ _ _ _ _ h
  case enum n i => exact h3 _ _ _ _ h
  case typedef n i o a => exact h4 _ _ _ _ _ _ h
  all_goals (cases h; exact ⟨_, List.mem_singleton.2 rfl, rfl⟩)

/-- **C04 (`convert_apis`)**: whatever the closures and their state do, every input name is present
afterwards, provided a *successful* conversion keeps its item. -/
theorem convert_apis_names {σ : Type} (c : Conversions σ T S F T' S' F') (hk : c.KeepName) (s : σ)
    (ins : ApiVec T S F) (out : ApiVec T' S' F') (ho : out.Inv) :
    ∀ n, n ∈ ins.nameList → n ∈ (convertApis c s ins out).2.nameList := by
  intro n hn
  obtain ⟨a, ha, rfl⟩ := List.mem_map.1 hn
  unfold convertApis
  simp only
  rw [apivec_extend_names out ho]
  right
  obtain ⟨s', hs⟩ := (flatMapM_mem (fun s a => ((convertApi c s a).1,
    apiOrError a.nameInfo (convertApi c s a).2)) s ins.apis).1 a ha
  simp only at hs
  cases hr : (convertApi c s' a).2 with
  | ok l =>
    obtain ⟨b, hb, e⟩ := convertApi_keeps c hk s' a l hr
    exact ⟨b, hs b (by rw [hr]; exact hb), e⟩
  | error e => exact ⟨_, hs _ (by rw [hr]; exact List.mem_singleton.2 rfl), rfl⟩

/-- **C04 (`convert_apis`, errors are recorded)**: when the conversion of an item fails in every state,
a marker with an error and the item's full name is among what is inserted for it. -/
theorem convert_apis_error_recorded {σ : Type} (c : Conversions σ T S F T' S' F') (s : σ)
    (ins : ApiVec T S F) (a : Api T S F) (ha : a ∈ ins.apis)
    (hf : ∀ s, ∃ e, (convertApi c s a).2 = .error e) :
    ∃ s' e, (convertApi c s' a).2 = .error e ∧
      Api.ignoredItem a.nameInfo e.err e.ctx ∈ (flatMapM (fun s a => ((convertApi c s a).1,
        apiOrError a.nameInfo (convertApi c s a).2)) s ins.apis).2 := by
  obtain ⟨s', hs⟩ := (flatMapM_mem (fun s a => ((convertApi c s a).1,
    apiOrError a.nameInfo (convertApi c s a).2)) s ins.apis).1 a ha
  obtain ⟨e, he⟩ := hf s'
  exact ⟨s', e, he, hs _ (by simp [he, apiOrError])⟩

/-- Items of the thirteen kinds a phase does not touch are passed on as they are. -/
theorem convert_api_passthrough {σ : Type} (c : Conversions σ T S F T' S' F') (s : σ) (a : Api T S F)
    (h1 : ∀ n f x, a ≠ .function n f x) (h2 : ∀ n d x, a ≠ .struct n d x)
    (h3 : ∀ n i, a ≠ .enum n i) (h4 : ∀ n i o x, a ≠ .typedef n i o x) :
    ∃ b, convertApi c s a = (s, .ok [b]) ∧ b.nameInfo = a.nameInfo ∧ b.isIgnored = a.isIgnored := by
  cases a with
  | function n f x => exact absurd rfl (h1 n f x)
  | struct n d x => exact absurd rfl (h2 n d x)
  | enum n i => exact absurd rfl (h3 n i)
  | typedef n i o x => exact absurd rfl (h4 n i o x)
  | _ => exact ⟨_, rfl, rfl, rfl⟩

/-- **C04 (`report_any_error`)**: an error with a context is always recorded: afterwards something is
stored under the name the context points to, and it is a marker carrying the error unless that name
was already taken; errors never remove or change other entries; success changes nothing. -/
theorem report_any_error_visible {α : Type} (ns : List String) (v : ApiVec T S F) (hv : v.Inv)
    (r : Except ErrWithCtx α) :
    (∀ a, r = .ok a → reportAnyError ns v r = (v, some a)) ∧
    (∀ e, r = .error e → (reportAnyError ns v r).2 = none) ∧
    (∀ e c, r = .error ⟨e, some c⟩ →
      (reportAnyError ns v r).1.get? ⟨ns, c.filedUnder⟩ =
        match v.get? ⟨ns, c.filedUnder⟩ with
        | some b => some b
        | none => some (.ignoredItem ⟨⟨ns, c.filedUnder⟩, none⟩ e (some c))) ∧
    (∀ n b, v.get? n = some b → (reportAnyError ns v r).1.get? n = some b) := by
  refine ⟨?_, ?_, ?_, ?_⟩
  · rintro a rfl; rfl
  · rintro ⟨e, c⟩ rfl; cases c <;> rfl
  · rintro e c rfl
    simp only [reportAnyError]
    rw [apivec_push_spec v hv]
    refine (if_pos (by rfl)).trans ?_
    cases v.get? ⟨ns, c.filedUnder⟩ <;> simp [specMerge, Api.isIgnored, ApiName.ofQName]
  · intro n b hb
    match r with
    | .ok a => exact hb
    | .error ⟨_, none⟩ => exact hb
    | .error ⟨e, some c⟩ =>
      simp only [reportAnyError]
      rw [apivec_push_spec v hv, hb]
      split
      · simp [specMerge, Api.isIgnored]
      · rfl

/-- The marker of a failed *method* is filed under the name of its type, so when the type itself
arrives later it is taken for a duplicate and lost to a marker. -/
theorem report_any_error_method_takes_type_witness :
    ∃ (ty : NullApi) (e : ErrWithCtx), ty.isIgnored = false ∧
      let v := (reportAnyError (α := Unit) [] ({} : ApiVec Unit Unit Unit) (.error e)).1
      (v.push ty).get? ty.name ≠ some ty := by
  refine ⟨.enum ⟨⟨[], "A"⟩, none⟩ "", ⟨.deleted, some (.method "A" "f")⟩, rfl, ?_⟩
  intro v h
  have := congrArg (fun o => o.map (·.isIgnored)) h
  exact absurd this (by decide)

end Verif
