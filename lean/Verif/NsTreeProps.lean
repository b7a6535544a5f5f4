import Verif.NsTree
import Verif.Names
import Mathlib.Data.List.Nodup
import Mathlib.Data.String.Basic
import Mathlib.Tactic.Push

/-!
# C28: every binding appears once, in the module of its namespace
-/

set_option autoImplicit false

namespace Verif

/-! ## What is to be shown -/

mutual
/-- The items of the node reached by following names; `none` if there is no such node. -/
def NsTree.at? {α : Type} : NsTree α → List String → Option (List α)
  | .node entries _, [] => some entries
  | .node _ children, n :: p => children.at? n p
/-- The items of the node reached through one of these children. -/
def NsKids.at? {α : Type} : NsKids α → String → List String → Option (List α)
  | .nil, _, _ => none
  | .cons k t r, n, p => if n = k then t.at? p else r.at? n p
end

/-- The names of the children, in order. -/
def NsKids.names {α : Type} : NsKids α → List String
  | .nil => []
  | .cons k _ r => k :: r.names

mutual
/-- Everywhere in the tree, the children of a node have different names, in ascending order. -/
inductive NsTree.Sorted {α : Type} : NsTree α → Prop
  | node {entries : List α} {children : NsKids α} (h : children.names.Pairwise (· < ·)) (hk : children.Sorted) :
    NsTree.Sorted (.node entries children)
/-- Every one of these trees is sorted. -/
inductive NsKids.Sorted {α : Type} : NsKids α → Prop
  | nil : NsKids.Sorted .nil
  | cons {k : String} {t : NsTree α} {r : NsKids α} (ht : t.Sorted) (hr : r.Sorted) : NsKids.Sorted (.cons k t r)
end

/-! ## Lists under names -/

/-- What is under a name. -/
def under {α : Type} (m : List (String × List α)) (n : String) : List α := ((m.find? (·.1 = n)).map (·.2)).getD []

theorem under_cons {α : Type} (k : String) (v : List α) (m : List (String × List α)) (n : String) :
    under ((k, v) :: m) n = if k = n then v else under m n := by
  by_cases h : k = n <;> simp [under, h]

theorem btPush_keys {α : Type} (m : List (String × List α)) (k : String) (v : α) (n : String) :
    n ∈ (btPush m k v).map (·.1) ↔ n = k ∨ n ∈ m.map (·.1) := by
  induction m with
  | nil => simp [btPush]
  | cons e m ih =>
    obtain ⟨k', vs⟩ := e
    rw [btPush]
    split
    · rename_i h; subst h; simp
    · split
      · simp
      · simp only [List.map_cons, List.mem_cons, ih]
        tauto

theorem btPush_sorted {α : Type} {m : List (String × List α)} (h : (m.map (·.1)).Pairwise (· < ·)) (k : String) (v : α) :
    ((btPush m k v).map (·.1)).Pairwise (· < ·) := by
  induction m with
  | nil => simp [btPush]
  | cons e m ih =>
    obtain ⟨k', vs⟩ := e
    rw [List.map_cons, List.pairwise_cons] at h
    rw [btPush]
    split
    · exact List.pairwise_cons.2 h
    · rename_i hne
      split
      · rename_i hlt
        refine List.pairwise_cons.2 ⟨fun a ha => ?_, List.pairwise_cons.2 h⟩
        rcases List.mem_cons.1 ha with rfl | ha
        · exact hlt
        · exact lt_trans hlt (h.1 a ha)
      · rename_i hge
        refine List.pairwise_cons.2 ⟨fun a ha => ?_, ih h.2⟩
        rcases (btPush_keys m k v a).1 ha with rfl | ha
        · exact lt_of_le_of_ne (not_lt.1 hge) (Ne.symm hne)
        · exact h.1 a ha

theorem under_none {α : Type} {m : List (String × List α)} {n : String} (h : n ∉ m.map (·.1)) : under m n = [] := by
  rw [under, List.find?_eq_none.2]
  · rfl
  · intro e he
    simp only [decide_eq_true_eq]
    rintro rfl
    exact h (List.mem_map_of_mem he)

theorem btPush_under {α : Type} {m : List (String × List α)} (h : (m.map (·.1)).Pairwise (· < ·)) (k : String) (v : α)
    (n : String) : under (btPush m k v) n = if n = k then under m n ++ [v] else under m n := by
  induction m with
  | nil => by_cases hn : k = n <;> simp [btPush, under, hn, Ne.symm]
  | cons e m ih =>
    obtain ⟨k', vs⟩ := e
    rw [List.map_cons, List.pairwise_cons] at h
    rw [btPush]
    split
    · rename_i hk
      subst hk
      rw [under_cons, under_cons]
      by_cases hn : k = n
      · subst hn; simp
      · simp [hn, Ne.symm hn]
    · rename_i hne
      split
      · rename_i hlt
        rw [under_cons]
        by_cases hn : k = n
        · subst hn
          rw [if_pos rfl, if_pos rfl, under_none, List.nil_append]
          intro hm
          rcases List.mem_cons.1 hm with rfl | hm
          · exact hne rfl
          · exact lt_asymm hlt (h.1 _ hm)
        · rw [if_neg hn, if_neg (Ne.symm hn)]
      · rw [under_cons, under_cons, ih h.2]
        by_cases hn : k' = n
        · subst hn
          rw [if_pos rfl, if_pos rfl, if_neg (Ne.symm hne)]
        · rw [if_neg hn, if_neg hn]

/-- What the loop of the sort has made of some items. -/
structure Split {α : Type} (nsOf : α → List String) (depth : Nat) (items : List α)
    (r : List α × List (String × List α)) : Prop where
  here : r.1 = items.filter fun a => (nsOf a)[depth]? = none
  sorted : (r.2.map (·.1)).Pairwise (· < ·)
  below : ∀ n, under r.2 n = items.filter fun a => (nsOf a)[depth]? = some n
  keys : ∀ n, n ∈ r.2.map (·.1) ↔ ∃ a ∈ items, (nsOf a)[depth]? = some n

theorem split_made {α : Type} (nsOf : α → List String) (depth : Nat) (items : List α) :
    Split nsOf depth items (items.foldl (nsSplitStep nsOf depth) ([], [])) := by
  suffices H : ∀ (l pre : List α) r, Split nsOf depth pre r →
      Split nsOf depth (pre ++ l) (l.foldl (nsSplitStep nsOf depth) r) from
    H items [] ([], []) ⟨rfl, List.Pairwise.nil, fun _ => rfl, fun n => by simp⟩
  intro l
  induction l with
  | nil => intro pre r h; simpa using h
  | cons a l ih =>
    intro pre r h
    rw [List.foldl_cons, show pre ++ a :: l = (pre ++ [a]) ++ l by simp]
    apply ih
    rw [nsSplitStep]
    split
    · rename_i e he
      refine ⟨?_, btPush_sorted h.sorted e a, fun n => ?_, fun n => ?_⟩
      · rw [List.filter_append, ← h.here, List.filter_cons_of_neg (by rw [he]; simp), List.filter_nil, List.append_nil]
      · rw [btPush_under h.sorted, h.below]
        by_cases hn : n = e
        · subst hn; simp [he]
        · simp [he, hn, Ne.symm hn]
      · rw [btPush_keys, h.keys]
        constructor
        · rintro (rfl | ⟨b, hb, hbn⟩)
          · exact ⟨a, by simp, he⟩
          · exact ⟨b, by simp [hb], hbn⟩
        · rintro ⟨b, hb, hbn⟩
          rcases List.mem_append.1 hb with hb | hb
          · exact .inr ⟨b, hb, hbn⟩
          · cases List.mem_singleton.1 hb
            rw [he] at hbn
            exact .inl (Option.some.inj hbn).symm
    · rename_i he
      refine ⟨?_, h.sorted, fun n => ?_, fun n => ?_⟩
      · rw [List.filter_append, ← h.here, List.filter_cons_of_pos (by rw [he]; simp), List.filter_nil]
      · simp [h.below, he]
      · rw [h.keys]
        constructor
        · rintro ⟨b, hb, hbn⟩; exact ⟨b, by simp [hb], hbn⟩
        · rintro ⟨b, hb, hbn⟩
          rcases List.mem_append.1 hb with hb | hb
          · exact ⟨b, hb, hbn⟩
          · cases List.mem_singleton.1 hb; rw [he] at hbn; cases hbn

theorem mem_under {α : Type} {m : List (String × List α)} {k : String} {v : List α}
    (h : (m.map (·.1)).Pairwise (· < ·)) (hm : (k, v) ∈ m) : under m k = v := by
  induction m with
  | nil => cases hm
  | cons e m ih =>
    obtain ⟨k', vs⟩ := e
    rw [List.map_cons, List.pairwise_cons] at h
    rw [under_cons]
    rcases List.mem_cons.1 hm with hm | hm
    · cases hm; rw [if_pos rfl]
    · rw [if_neg, ih h.2 hm]
      rintro rfl
      exact lt_irrefl _ (h.1 _ (List.mem_map.2 ⟨_, hm, rfl⟩))

/-- What holds of the children made from lists under names. -/
theorem children_made {α : Type} {f : List α → Option (NsTree α)} {m : List (String × List α)}
    (h : ∀ e ∈ m, ∃ t, f e.2 = some t ∧ t.Sorted) (hs : (m.map (·.1)).Pairwise (· < ·)) :
    ∃ r, nsChildren f m = some r ∧ r.names = m.map (·.1) ∧ r.Sorted ∧
      ∀ n p, r.at? n p = if n ∈ m.map (·.1) then (f (under m n)).bind (·.at? p) else none := by
  induction m with
  | nil => exact ⟨.nil, rfl, rfl, .nil, fun n p => by simp [NsKids.at?]⟩
  | cons e m ih =>
    obtain ⟨k, v⟩ := e
    rw [List.map_cons, List.pairwise_cons] at hs
    obtain ⟨t, ht, hst⟩ := h (k, v) List.mem_cons_self
    obtain ⟨r, hr, hn, hsr, ha⟩ := ih (fun e he => h e (List.mem_cons_of_mem _ he)) hs.2
    refine ⟨.cons k t r, ?_, ?_, .cons hst hsr, fun n p => ?_⟩
    · rw [nsChildren, hr]; dsimp only at ht; rw [ht]
    · rw [NsKids.names, hn]; rfl
    · rw [NsKids.at?, under_cons]
      by_cases hk : n = k
      · subst hk
        simp only [if_true, List.map_cons, List.mem_cons_self]
        dsimp only at ht
        rw [ht]; rfl
      · rw [if_neg hk, if_neg (Ne.symm hk), ha]
        simp only [List.map_cons, List.mem_cons, hk, false_or]

theorem getElem?_none_prefix {q x : List String} (h : q <+: x) : x[q.length]? = none ↔ x = q := by
  obtain ⟨s, rfl⟩ := h
  cases s <;> simp

theorem getElem?_some_prefix {q x : List String} (h : q <+: x) (n : String) :
    x[q.length]? = some n ↔ (q ++ [n]) <+: x := by
  obtain ⟨s, rfl⟩ := h
  cases s with
  | nil =>
    simp only [List.append_nil, List.getElem?_length, reduceCtorEq, false_iff]
    intro h
    have := h.length_le
    simp at this
  | cons a s => simp [List.prefix_append_right_inj, eq_comm]

theorem sort_from {α : Type} (nsOf : α → List String) : ∀ (fuel : Nat) (items : List α) (q : List String),
    (∀ a ∈ items, q <+: nsOf a ∧ (nsOf a).length < q.length + fuel) → 0 < fuel →
    ∃ t, nsSort nsOf fuel items q.length = some t ∧ t.Sorted ∧
      ∀ p, t.at? p = if p = [] ∨ ∃ a ∈ items, (q ++ p) <+: nsOf a then some (items.filter fun a => nsOf a = q ++ p)
        else none := by
  intro fuel
  induction fuel with
  | zero => intro _ _ _ h; omega
  | succ fuel ih =>
    intro items q hq _
    have hsp := split_made nsOf q.length items
    rw [nsSort]
    generalize items.foldl (nsSplitStep nsOf q.length) ([], []) = r at hsp ⊢
    have hkid : ∀ n, n ∈ r.2.map (·.1) → ∃ t, nsSort nsOf fuel (under r.2 n) (q.length + 1) = some t ∧ t.Sorted ∧
        ∀ p, t.at? p = if p = [] ∨ ∃ a ∈ under r.2 n, (q ++ [n] ++ p) <+: nsOf a then
          some ((under r.2 n).filter fun a => nsOf a = q ++ [n] ++ p) else none := by
      intro n hn
      obtain ⟨a, ha, han⟩ := (hsp.keys n).1 hn
      have hlen : q.length + 1 = (q ++ [n]).length := by simp
      rw [hlen]
      apply ih
      · intro b hb
        rw [hsp.below, List.mem_filter] at hb
        have hbn : (nsOf b)[q.length]? = some n := by simpa using hb.2
        refine ⟨(getElem?_some_prefix (hq b hb.1).1 n).1 hbn, ?_⟩
        have := (hq b hb.1).2
        simp only [List.length_append, List.length_singleton]
        omega
      · have := (hq a ha).2
        have h2 := (List.getElem?_eq_some_iff.1 han).1
        omega
    obtain ⟨kids, hk, hnames, hks, hat⟩ := children_made (f := fun v => nsSort nsOf fuel v (q.length + 1)) (m := r.2)
      (fun e he => by
        obtain ⟨t, ht, hs, _⟩ := hkid e.1 (List.mem_map_of_mem he)
        exact ⟨t, by rw [← ht, mem_under hsp.sorted he], hs⟩) hsp.sorted
    refine ⟨.node r.1 kids, by rw [hk]; rfl, .node (by rw [hnames]; exact hsp.sorted) hks, fun p => ?_⟩
    cases p with
    | nil =>
      rw [NsTree.at?, if_pos (.inl rfl), hsp.here]
      congr 1
      apply List.filter_congr
      intro a ha
      simp only [List.append_nil, decide_eq_decide]
      exact getElem?_none_prefix (hq a ha).1
    | cons n p =>
      rw [NsTree.at?, hat]
      have hassoc : q ++ n :: p = q ++ [n] ++ p := by simp
      by_cases hn : n ∈ r.2.map (·.1)
      · rw [if_pos hn]
        obtain ⟨t, ht, _, htat⟩ := hkid n hn
        rw [ht, Option.bind_some, htat, hsp.below, List.filter_filter]
        have hex : (p = [] ∨ ∃ a ∈ items.filter (fun a => (nsOf a)[q.length]? = some n), (q ++ [n] ++ p) <+: nsOf a) ↔
            (n :: p = [] ∨ ∃ a ∈ items, (q ++ n :: p) <+: nsOf a) := by
          rw [hassoc]
          constructor
          · rintro (rfl | ⟨a, ha, hp⟩)
            · obtain ⟨a, ha, han⟩ := (hsp.keys n).1 hn
              refine .inr ⟨a, ha, ?_⟩
              rw [List.append_nil]
              exact (getElem?_some_prefix (hq a ha).1 n).1 han
            · exact .inr ⟨a, (List.mem_filter.1 ha).1, hp⟩
          · rintro (h | ⟨a, ha, hp⟩)
            · cases h
            · refine .inr ⟨a, List.mem_filter.2 ⟨ha, ?_⟩, hp⟩
              rw [decide_eq_true_eq]
              exact (getElem?_some_prefix (hq a ha).1 n).2 ((List.prefix_append _ _).trans hp)
        simp only [hex]
        split
        · congr 1
          apply List.filter_congr
          intro a ha
          rw [hassoc]
          by_cases he : nsOf a = q ++ [n] ++ p
          · have : (nsOf a)[q.length]? = some n :=
              (getElem?_some_prefix (hq a ha).1 n).2 (he ▸ List.prefix_append _ _)
            simp [he]
          · simp only [he, decide_false, Bool.false_and]
        · rfl
      · rw [if_neg hn, if_neg]
        rintro (h | ⟨a, ha, hp⟩)
        · cases h
        · apply hn
          rw [hsp.keys]
          refine ⟨a, ha, (getElem?_some_prefix (hq a ha).1 n).2 ?_⟩
          rw [hassoc] at hp
          exact (List.prefix_append _ _).trans hp

/-- **C28**: sorting items by namespace ends. In the tree made, the node reached by following a path holds exactly the
items whose namespace is that path, in the order they came in; there is such a node only for the root and for
namespaces something is in; and no node has two children of the same name. -/
theorem sorted_by_namespace {α : Type} (nsOf : α → List String) (items : List α) (fuel : Nat)
    (h : ∀ a ∈ items, (nsOf a).length < fuel) (hf : 0 < fuel) :
    ∃ t, nsSort nsOf fuel items 0 = some t ∧ t.Sorted ∧
      ∀ p, t.at? p = if p = [] ∨ ∃ a ∈ items, p <+: nsOf a then some (items.filter fun a => nsOf a = p) else none := by
  have := sort_from nsOf fuel items [] (fun a ha => ⟨List.nil_prefix, by simpa using h a ha⟩) hf
  simpa using this

/-! ## The modules -/

section
variable {ι κ τ μ : Type}

/-- Whether an item is a module. -/
def OutItem.isMod : OutItem ι κ τ μ → Bool
  | .mod .. => true
  | _ => false

/-- The contents of the module of this name, if an item is that. -/
def OutItem.modNamed (n : String) : OutItem ι κ τ μ → Option (List (OutItem ι κ τ μ))
  | .mod k c => if n = k then some c else none
  | _ => none

/-- The names of the modules among some items. -/
def modNames : List (OutItem ι κ τ μ) → List String
  | [] => []
  | .mod k _ :: l => k :: modNames l
  | _ :: l => modNames l

/-- The contents of the module reached by following a path. -/
def followMods : List (OutItem ι κ τ μ) → List String → Option (List (OutItem ι κ τ μ))
  | l, [] => some l
  | l, n :: p =>
    match l.findSome? (OutItem.modNamed n) with
    | some c => followMods c p
    | none => none

/-- What a module made of these pieces is to hold, apart from other modules. -/
structure Holds [DecidableEq κ] [DecidableEq τ] (pieces : List (RsPiece ι κ τ μ)) (direct : List (OutItem ι κ τ μ)) :
    Prop where
  parts : ∃ (impls : List (κ × List μ)) (traits : List (τ × List μ)),
    direct = (pieces.flatMap (·.items)).map .item ++ impls.map (fun g => .impl g.1 g.2) ++
      traits.map (fun g => .traitImpl g.1 g.2) ∧
    (impls.map (·.1)).Nodup ∧ (traits.map (·.1)).Nodup ∧
    (∀ ty ms, (ty, ms) ∈ impls ↔ ms ≠ [] ∧ ms = pieces.filterMap fun p =>
      match p.implEntry with
      | some e => if e.1 = ty then some e.2 else none
      | none => none) ∧
    ∀ key ms, (key, ms) ∈ traits ↔ ms ≠ [] ∧ ms = pieces.filterMap fun p =>
      match p.traitImplEntry with
      | some e => if e.1 = key then some e.2 else none
      | none => none

/-! ### Groups -/

theorem get_group {κ μ : Type} [DecidableEq κ] (l : List (κ × μ)) (k : κ) :
    ((AMap.get? (groupEntries l) k).getD [] = l.filterMap fun e => if e.1 = k then some e.2 else none) ∧
      (AMap.get? (groupEntries l) k ≠ some []) ∧ AMap.WF (groupEntries l) := by
  suffices H : ∀ (l pre : List (κ × μ)) m,
      (((AMap.get? m k).getD [] = pre.filterMap fun e => if e.1 = k then some e.2 else none) ∧
        AMap.get? m k ≠ some [] ∧ AMap.WF m) →
      (((AMap.get? (l.foldl groupPush m) k).getD [] =
          (pre ++ l).filterMap fun e => if e.1 = k then some e.2 else none) ∧
        AMap.get? (l.foldl groupPush m) k ≠ some [] ∧ AMap.WF (l.foldl groupPush m)) from
    H l [] [] ⟨rfl, by simp, AMap.nil_wf⟩
  intro l
  induction l with
  | nil => intro pre m h; simpa using h
  | cons e l ih =>
    intro pre m h
    rw [List.foldl_cons, show pre ++ e :: l = (pre ++ [e]) ++ l by simp]
    apply ih
    rw [groupPush, AMap.get?_insert]
    by_cases hk : e.1 = k
    · subst hk
      refine ⟨?_, ?_, AMap.insert_wf h.2.2 _ _⟩
      · simp [h.1]
      · simp
    · rw [if_neg hk]
      refine ⟨?_, h.2.1, AMap.insert_wf h.2.2 _ _⟩
      simp [h.1, hk]

theorem mem_group {κ μ : Type} [DecidableEq κ] (l : List (κ × μ)) (k : κ) (ms : List μ) :
    (k, ms) ∈ groupEntries l ↔ ms ≠ [] ∧ ms = l.filterMap fun e => if e.1 = k then some e.2 else none := by
  obtain ⟨h1, h2, h3⟩ := get_group l k
  constructor
  · intro h
    have hg := AMap.mem_get? h3 h
    rw [hg] at h1 h2
    exact ⟨fun he => h2 (by rw [he]), h1⟩
  · rintro ⟨hne, he⟩
    cases hg : AMap.get? (groupEntries l) k with
    | none => rw [hg] at h1; exact absurd (he.trans h1.symm) hne
    | some v =>
      rw [hg] at h1
      have : v = ms := h1.trans he.symm
      subst this
      exact AMap.get?_mem hg

/-! ### Following -/

/-- The items of a node. -/
def NsTree.entries {α : Type} : NsTree α → List α
  | .node e _ => e

mutual
/-- The node reached by following names. -/
def NsTree.sub? {α : Type} : NsTree α → List String → Option (NsTree α)
  | t, [] => some t
  | .node _ children, n :: p => children.sub? n p
/-- The node reached through one of these children. -/
def NsKids.sub? {α : Type} : NsKids α → String → List String → Option (NsTree α)
  | .nil, _, _ => none
  | .cons k t r, n, p => if n = k then t.sub? p else r.sub? n p
end

theorem NsTree.sub?_nil {α : Type} (t : NsTree α) : t.sub? [] = some t := by cases t; rfl

mutual
theorem NsTree.at_sub {α : Type} : ∀ (t : NsTree α) (p : List String), t.at? p = (t.sub? p).map NsTree.entries
  | .node _ _, [] => rfl
  | .node _ children, n :: p => NsKids.at_sub children n p
theorem NsKids.at_sub {α : Type} : ∀ (r : NsKids α) (n : String) (p : List String),
    r.at? n p = (r.sub? n p).map NsTree.entries
  | .nil, _, _ => rfl
  | .cons k t r, n, p => by
    rw [NsKids.at?, NsKids.sub?]
    split
    · exact NsTree.at_sub t p
    · exact NsKids.at_sub r n p
end

mutual
theorem NsTree.empty_at {α : Type} : ∀ (t : NsTree α), t.isEmpty = true → ∀ p l, t.at? p = some l → l = []
  | .node entries children, h, p, l, hl => by
    rw [NsTree.isEmpty, Bool.and_eq_true, List.isEmpty_iff] at h
    cases p with
    | nil => rw [NsTree.at?] at hl; cases hl; exact h.1
    | cons n p => rw [NsTree.at?] at hl; exact NsKids.empty_at children h.2 n p l hl
theorem NsKids.empty_at {α : Type} : ∀ (r : NsKids α), r.allEmpty = true → ∀ n p l, r.at? n p = some l → l = []
  | .nil, _, _, _, _, hl => by cases hl
  | .cons k t r, h, n, p, l, hl => by
    rw [NsKids.allEmpty, Bool.and_eq_true] at h
    rw [NsKids.at?] at hl
    split at hl
    · exact NsTree.empty_at t h.1 p l hl
    · exact NsKids.empty_at r h.2 n p l hl
end

theorem sub_append {α : Type} : ∀ (t : NsTree α) (p q : List String), t.sub? (p ++ q) = (t.sub? p).bind (·.sub? q) := by
  intro t p
  induction p generalizing t with
  | nil => intro q; rw [NsTree.sub?_nil]; rfl
  | cons n p ih =>
    intro q
    obtain ⟨e, kids⟩ := t
    rw [List.cons_append, NsTree.sub?, NsTree.sub?]
    clear e
    suffices H : ∀ r : NsKids α, r.sub? n (p ++ q) = (r.sub? n p).bind (·.sub? q) from H kids
    intro r
    match r with
    | .nil => rfl
    | .cons k t r =>
      have := NsKids.rec (motive_1 := fun _ : NsTree α => True)
        (motive_2 := fun r : NsKids α => r.sub? n (p ++ q) = (r.sub? n p).bind (·.sub? q))
        (fun _ _ _ => trivial) rfl (fun k t r _ ih' => by
          rw [NsKids.sub?, NsKids.sub?]
          split
          · exact ih t q
          · exact ih') (.cons k t r)
      exact this

variable [DecidableEq κ] [DecidableEq τ]

theorem findSome_direct {α : Type} (piece : α → RsPiece ι κ τ μ) (entries : List α) (children : NsKids α) (n : String) :
    (outputModule piece (.node entries children)).findSome? (OutItem.modNamed n) =
      (outputChildren piece children).findSome? (OutItem.modNamed n) := by
  rw [outputModule, List.findSome?_append, Option.or_eq_right_of_none]
  rw [List.findSome?_eq_none_iff]
  intro x hx
  simp only [List.mem_append, List.mem_flatMap, List.mem_map] at hx
  rcases hx with (⟨_, _, _, _, rfl⟩ | ⟨_, _, rfl⟩) | ⟨_, _, rfl⟩ <;> rfl

theorem findSome_children {α : Type} (piece : α → RsPiece ι κ τ μ) (n : String) : ∀ (r : NsKids α),
    (∀ k t, r.sub? k [] = some t → t.isEmpty = false) →
    r.names.Pairwise (· < ·) →
    (outputChildren piece r).findSome? (OutItem.modNamed n) =
      (r.sub? n []).map fun t => .imports :: outputModule piece t := by
  intro r
  refine NsKids.rec (motive_1 := fun _ : NsTree α => True) (motive_2 := fun r : NsKids α =>
    (∀ k t, r.sub? k [] = some t → t.isEmpty = false) → r.names.Pairwise (· < ·) →
    (outputChildren piece r).findSome? (OutItem.modNamed n) =
      (r.sub? n []).map fun t => .imports :: outputModule piece t) (fun _ _ _ => trivial) (fun _ _ => rfl) ?_ r
  intro k t r _ ih h hs
  rw [NsKids.names, List.pairwise_cons] at hs
  have ht : t.isEmpty = false := h k t (by rw [NsKids.sub?, if_pos rfl, NsTree.sub?_nil])
  rw [outputChildren, ht, NsKids.sub?]
  simp only [Bool.false_eq_true, if_false, List.singleton_append, List.findSome?_cons, OutItem.modNamed]
  by_cases hn : n = k
  · rw [if_pos hn, if_pos hn, NsTree.sub?_nil]; rfl
  · rw [if_neg hn, if_neg hn]
    dsimp only
    apply ih _ hs.2
    intro k' t' hk'
    refine h k' t' ?_
    rw [NsKids.sub?, if_neg, hk']
    rintro rfl
    have hm : ∀ r : NsKids α, r.sub? k' [] = some t' → k' ∈ r.names := by
      intro r
      refine NsKids.rec (motive_1 := fun _ : NsTree α => True)
        (motive_2 := fun r : NsKids α => r.sub? k' [] = some t' → k' ∈ r.names) (fun _ _ _ => trivial)
        (fun h => by cases h) ?_ r
      intro k2 t2 r2 _ ih2 h2
      rw [NsKids.sub?] at h2
      rw [NsKids.names]
      split at h2
      · rename_i e; subst e; exact List.mem_cons_self
      · exact List.mem_cons_of_mem _ (ih2 h2)
    exact lt_irrefl _ (hs.1 _ (hm r hk'))

theorem sorted_sub {α : Type} : ∀ (p : List String) (t t' : NsTree α), t.Sorted → t.sub? p = some t' → t'.Sorted := by
  intro p
  induction p with
  | nil => intro t t' h h'; rw [NsTree.sub?_nil] at h'; cases h'; exact h
  | cons n p ih =>
    rintro ⟨e, kids⟩ t' h h'
    rw [NsTree.sub?] at h'
    cases h with
    | node hp hk =>
      clear hp
      revert h' hk
      refine NsKids.rec (motive_1 := fun _ : NsTree α => True)
        (motive_2 := fun r : NsKids α => r.sub? n p = some t' → r.Sorted → t'.Sorted) (fun _ _ _ => trivial)
        (fun h => by cases h) ?_ kids
      intro k t r _ ih2 h2 hs
      cases hs with
      | cons ht hr =>
        rw [NsKids.sub?] at h2
        split at h2
        · exact ih t t' ht h2
        · exact ih2 h2 hr

theorem follow_tree {α : Type} (piece : α → RsPiece ι κ τ μ) : ∀ (p : List String) (t : NsTree α), t.Sorted →
    (∀ p t', p ≠ [] → t.sub? p = some t' → t'.isEmpty = false) →
    followMods (outputModule piece t) p =
      (t.sub? p).map fun t' => (if p = [] then [] else [.imports]) ++ outputModule piece t' := by
  intro p
  induction p with
  | nil => intro t _ _; rw [NsTree.sub?_nil]; rfl
  | cons n p ih =>
    intro t hs hne
    obtain ⟨entries, kids⟩ := t
    cases hs with
    | node hp hk =>
      rw [followMods, findSome_direct, findSome_children piece n kids (fun k t h => hne [k] t (by simp) h) hp,
        show n :: p = [n] ++ p from rfl, sub_append]
      have e : NsTree.sub? (.node entries kids) [n] = kids.sub? n [] := by rw [NsTree.sub?]
      rw [e]
      cases hk' : kids.sub? n [] with
      | none => rfl
      | some t =>
        simp only [Option.map_some, Option.bind_some]
        have hst : t.Sorted := sorted_sub [n] (.node entries kids) t (.node hp hk) (e.trans hk')
        have hnt : ∀ p t', t.sub? p = some t' → t'.isEmpty = false := by
          intro q t' h
          refine hne ([n] ++ q) t' (by simp) ?_
          rw [sub_append, e, hk']
          exact h
        have := ih t hst (fun q t' _ => hnt q t')
        cases p with
        | nil => rw [NsTree.sub?_nil]; rfl
        | cons m p =>
          have h2 : followMods (OutItem.imports :: outputModule piece t) (m :: p) =
              followMods (outputModule piece t) (m :: p) := by
            rw [followMods, followMods, List.findSome?_cons]; rfl
          rw [h2, this]
          rfl

theorem module_holds {α : Type} (piece : α → RsPiece ι κ τ μ) (entries : List α) (children : NsKids α) :
    ∃ direct, outputModule piece (.node entries children) = direct ++ outputChildren piece children ∧
      Holds (entries.map piece) direct := by
  refine ⟨_, rfl, ⟨groupEntries (entries.filterMap fun e => (piece e).implEntry),
    groupEntries (entries.filterMap fun e => (piece e).traitImplEntry), ?_, ?_, ?_, ?_, ?_⟩⟩
  · simp only [List.flatMap_map, List.map_flatMap]
  · cases entries with
    | nil => exact List.nodup_nil
    | cons a l =>
      by_cases h : ∃ k : κ, True
      · obtain ⟨k, _⟩ := h; exact (get_group _ k).2.2
      · cases hg : groupEntries ((a :: l).filterMap fun e => (piece e).implEntry) with
        | nil => exact List.nodup_nil
        | cons g _ => exact absurd ⟨g.1, trivial⟩ h
  · by_cases h : ∃ k : τ, True
    · obtain ⟨k, _⟩ := h; exact (get_group _ k).2.2
    · cases hg : groupEntries (entries.filterMap fun e => (piece e).traitImplEntry) with
      | nil => exact List.nodup_nil
      | cons g _ => exact absurd ⟨g.1, trivial⟩ h
  · intro ty ms
    rw [mem_group, List.filterMap_filterMap, List.filterMap_map]
    suffices h : (fun x => (piece x).implEntry.bind fun e => if e.1 = ty then some e.2 else none) =
        ((fun p : RsPiece ι κ τ μ => match p.implEntry with
          | some e => if e.1 = ty then some e.2 else none
          | none => none) ∘ piece) by rw [h]
    funext x
    simp only [Function.comp]
    cases (piece x).implEntry <;> rfl
  · intro key ms
    rw [mem_group, List.filterMap_filterMap, List.filterMap_map]
    suffices h : (fun x => (piece x).traitImplEntry.bind fun e => if e.1 = key then some e.2 else none) =
        ((fun p : RsPiece ι κ τ μ => match p.traitImplEntry with
          | some e => if e.1 = key then some e.2 else none
          | none => none) ∘ piece) by rw [h]
    funext x
    simp only [Function.comp]
    cases (piece x).traitImplEntry <;> rfl

theorem children_mods {α : Type} (piece : α → RsPiece ι κ τ μ) (r : NsKids α) :
    (∀ x ∈ outputChildren piece r, x.isMod = true) ∧ (modNames (outputChildren piece r)).Sublist r.names := by
  refine NsKids.rec (motive_1 := fun _ : NsTree α => True) (motive_2 := fun r : NsKids α =>
    (∀ x ∈ outputChildren piece r, x.isMod = true) ∧ (modNames (outputChildren piece r)).Sublist r.names)
    (fun _ _ _ => trivial) ⟨List.forall_mem_nil _, List.Sublist.slnil⟩ ?_ r
  intro k t r _ ih
  rw [outputChildren, NsKids.names]
  split
  · exact ⟨by simpa using ih.1, List.Sublist.cons _ ih.2⟩
  · refine ⟨fun x hx => ?_, List.Sublist.cons_cons _ ih.2⟩
    rcases List.mem_append.1 hx with hx | hx
    · cases List.mem_singleton.1 hx; rfl
    · exact ih.1 x hx

/-- **C28**: every item made from a C++ item is in the module of its namespace, and there exactly once. The module
reached by following a path exists exactly if the path is empty or something is in that namespace or below it. It holds,
after the three names it imports if it is not the outermost, what the items of that namespace asked for, in order, one
`impl` block for each type and trait they have members for, and then modules, no two of them of the same name. -/
theorem output_modules {l : List (QName × RsPiece ι κ τ μ)} {fuel : Nat} (h : ∀ a ∈ l, a.1.ns.length < fuel)
    (hf : 0 < fuel) : ∃ out, outputModules fuel l = some out ∧
      (∀ p, (followMods out p).isSome = true ↔ p = [] ∨ ∃ a ∈ l, p <+: a.1.ns) ∧
      ∀ p c, followMods out p = some c → ∃ direct mods,
        c = (if p = [] then [] else [.imports]) ++ direct ++ mods ∧
        Holds ((l.filter fun a => a.1.ns = p).map (·.2)) direct ∧
        (∀ x ∈ mods, x.isMod = true) ∧ (modNames mods).Nodup := by
  obtain ⟨t, ht, hs, hat⟩ := sorted_by_namespace (fun e : QName × RsPiece ι κ τ μ => e.1.ns) l fuel h hf
  have hsub : ∀ p, t.sub? p = none ↔ ¬ (p = [] ∨ ∃ a ∈ l, p <+: a.1.ns) := by
    intro p
    have := hat p
    rw [NsTree.at_sub] at this
    constructor
    · intro hn hc; rw [hn, if_pos hc] at this; cases this
    · intro hc; rw [if_neg hc] at this; exact Option.map_eq_none_iff.1 this
  have hne : ∀ p t', p ≠ [] → t.sub? p = some t' → t'.isEmpty = false := by
    intro p t' hp h'
    by_contra hc
    rw [Bool.not_eq_false] at hc
    have : p = [] ∨ ∃ a ∈ l, p <+: a.1.ns := by
      by_contra hx
      rw [(hsub p).2 hx] at h'
      cases h'
    obtain ⟨a, ha, q, hq⟩ := this.resolve_left hp
    have h1 := hat (p ++ q)
    rw [if_pos (.inr ⟨a, ha, hq ▸ List.prefix_refl _⟩), NsTree.at_sub, sub_append, h'] at h1
    have h2 : t'.at? q = some (l.filter fun a => a.1.ns = p ++ q) := by rw [NsTree.at_sub]; exact h1
    have h3 := NsTree.empty_at t' hc q _ h2
    have h4 : a ∈ l.filter fun a => a.1.ns = p ++ q := List.mem_filter.2 ⟨ha, by simp [hq]⟩
    rw [h3] at h4
    cases h4
  have hfol := fun p => follow_tree (fun e : QName × RsPiece ι κ τ μ => e.2) p t hs hne
  refine ⟨outputModule (·.2) t, by rw [outputModules, ht]; rfl, fun p => ?_, fun p c hc => ?_⟩
  · rw [hfol, Option.isSome_map, ← Option.ne_none_iff_isSome, Ne, hsub, not_not]
  · rw [hfol] at hc
    obtain ⟨t', ht', rfl⟩ := Option.map_eq_some_iff.1 hc
    have hst := sorted_sub p t t' hs ht'
    obtain ⟨entries, kids⟩ := t'
    obtain ⟨direct, hd, hh⟩ := module_holds (fun e : QName × RsPiece ι κ τ μ => e.2) entries kids
    have he : entries = l.filter fun a => a.1.ns = p := by
      have := hat p
      rw [NsTree.at_sub, ht', if_pos] at this
      · exact Option.some.inj this
      · by_contra hx
        rw [(hsub p).2 hx] at ht'
        cases ht'
    refine ⟨direct, outputChildren (·.2) kids, ?_, he ▸ hh, (children_mods _ kids).1, ?_⟩
    · rw [hd, List.append_assoc]
    · cases hst with
      | node hp _ =>
        exact List.Nodup.sublist (children_mods _ kids).2 (hp.imp fun h => ne_of_lt h)

end

/-! ## Paths back to the root -/

/-- What a path written in a module refers to, given the path of that module: `super` goes up, a name goes down. -/
def goTo : List String → List String → Option (List String)
  | cur, [] => some cur
  | cur, n :: p => if n = "super" then (if cur = [] then none else goTo cur.dropLast p) else goTo (cur ++ [n]) p

theorem goTo_super (cur p : List String) : goTo cur (List.replicate cur.length "super" ++ p) = goTo [] p := by
  generalize hn : cur.length = n
  induction n generalizing cur with
  | zero => rw [List.length_eq_zero_iff.1 hn]; rfl
  | succ n ih =>
    have hne : cur ≠ [] := by rintro rfl; cases hn
    rw [List.replicate_succ, List.cons_append, goTo, if_pos rfl, if_neg hne]
    exact ih _ (by rw [List.length_dropLast, hn]; rfl)

theorem goTo_names (cur p : List String) (h : "super" ∉ p) : goTo cur p = some (cur ++ p) := by
  induction p generalizing cur with
  | nil => rw [goTo, List.append_nil]
  | cons n p ih =>
    rw [List.mem_cons, not_or] at h
    rw [goTo, if_neg (Ne.symm h.1), ih _ h.2, List.append_assoc]
    rfl

/-- **C28**: in the module of its namespace, the path of a `use` for something of the bridge leads to that thing in the
bridge, and the path of a `use` for something bindgen made leads to that thing in bindgen's module. -/
theorem use_paths_lead_home (q : QName) (h : q.name ≠ "super") :
    goTo q.ns (cxxUsePath q) = some ["cxxbridge", q.name] ∧
      ("super" ∉ q.ns → goTo q.ns (outputModRoot q.ns ++ q.bindgenPath) = some ("bindgen" :: "root" :: (q.ns ++ [q.name]))) := by
  refine ⟨?_, fun hns => ?_⟩
  · rw [cxxUsePath, outputModRoot, List.append_assoc, goTo_super, goTo_names _ _]
    · rfl
    · simp [Ne.symm h]
  · rw [outputModRoot, goTo_super, goTo_names]
    · simp [QName.bindgenPath, QName.segs]
    · simp [QName.bindgenPath, QName.segs, hns, Ne.symm h]

/-! ## An example -/

/-- Five things: two in `a::b`, with a member each of the same type, one in `a`, one in no namespace and one in `c`. -/
def exPieces : List (QName × RsPiece String String String String) :=
  [(⟨["a", "b"], "X"⟩, ⟨["use X"], some ("X", "fn f"), none⟩), (⟨[], "Y"⟩, ⟨["use Y"], none, none⟩),
    (⟨["c"], "Z"⟩, ⟨[], none, some ("Drop for Z", "fn drop")⟩), (⟨["a", "b"], "g"⟩, ⟨[], some ("X", "fn g"), none⟩),
    (⟨["a"], "h"⟩, ⟨["fn h"], none, none⟩)]

example : outputModules 3 exPieces = some
    [.item "use Y",
      .mod "a" [.imports, .item "fn h", .mod "b" [.imports, .item "use X", .impl "X" ["fn f", "fn g"]]],
      .mod "c" [.imports, .traitImpl "Drop for Z" ["fn drop"]]] := by
  rfl

example : (∀ a ∈ exPieces, a.1.ns.length < 3) ∧ cxxUsePath ⟨["a", "b"], "X"⟩ = ["super", "super", "cxxbridge", "X"] := by
  refine ⟨by decide, rfl⟩

end Verif
