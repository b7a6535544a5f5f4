import Verif.Trackers

/-!
# C08 and C09: names for overloads, names in the bridge
-/

set_option autoImplicit false

namespace Verif

/-! ## C08 -/

/-- Specification: the name given to a function when `earlier` have been named before it. The first of
its (type, name) keeps its name; the next ones get 1, 2, ... appended. -/
def overloadSpec (earlier : List (Option String × String)) (c : Option String × String) : String :=
  if earlier.count c = 0 then c.2 else c.2 ++ dec (earlier.count c)

/-- The tracker's counters after naming `seen`. -/
def OverloadTracker.Counts (t : OverloadTracker) (seen : List (Option String × String)) : Prop :=
  (∀ n, (t.offsetByName.get? n).getD 0 = seen.count (none, n)) ∧
  (∀ ty n, (((t.offsetByTypeAndName.get? ty).getD []).get? n).getD 0 = seen.count (some ty, n))

theorem overload_getName (t : OverloadTracker) (seen : List (Option String × String))
    (h : t.Counts seen) (c : Option String × String) :
    (t.getName c.1 c.2).2 = overloadSpec seen c ∧ (t.getName c.1 c.2).1.Counts (seen ++ [c]) := by
  obtain ⟨ty, n⟩ := c
  cases ty with
  | none =>
    refine ⟨?_, ?_, ?_⟩
    · simp only [OverloadTracker.getName, bumpOffset, overloadSpec, h.1 n]
    · intro m
      simp only [OverloadTracker.getName, bumpOffset, AMap.get?_insert, List.count_append, h.1 n]
      by_cases hm : n = m
      · subst hm; simp
      · simp [hm, h.1 m]
    · intro ty m
      simp only [OverloadTracker.getName, List.count_append, h.2 ty m]
      simp
  | some ty =>
    refine ⟨?_, ?_, ?_⟩
    · simp only [OverloadTracker.getName, bumpOffset, overloadSpec, h.2 ty n]
    · intro m
      simp only [OverloadTracker.getName, List.count_append, h.1 m]
      simp
    · intro ty' m
      simp only [OverloadTracker.getName, bumpOffset, AMap.get?_insert, List.count_append]
      by_cases ht : ty = ty'
      · subst ht
        simp only [if_true, Option.getD_some, AMap.get?_insert]
        by_cases hm : n = m
        · subst hm; simp [h.2 ty n]
        · simp [hm, h.2 ty m]
      · simp [ht, h.2 ty' m]

theorem overload_run_from (t : OverloadTracker) (seen l : List (Option String × String))
    (h : t.Counts seen) (pre post : List (Option String × String)) (c : Option String × String)
    (he : l = pre ++ c :: post) :
    (t.run l)[pre.length]? = some (overloadSpec (seen ++ pre) c) := by
  induction pre generalizing t seen l with
  | nil =>
    subst he
    obtain ⟨ty, n⟩ := c
    have := (overload_getName t seen h (ty, n)).1
    simp [OverloadTracker.run, this]
  | cons x pre ih =>
    subst he
    have hx := (overload_getName t seen h x).2
    have := ih _ _ _ hx rfl
    obtain ⟨ty, n⟩ := x
    simp only [List.cons_append, OverloadTracker.run, List.length_cons, List.getElem?_cons_succ]
    rw [this]
    simp

/-- **C08 (exact names)**: in any sequence, each function gets its own name if it is the first of that
name in its type (or the first free function of that name), and otherwise its name followed by the
number of earlier ones. -/
theorem overload_run_spec (pre post : List (Option String × String)) (c : Option String × String) :
    (OverloadTracker.run {} (pre ++ c :: post))[pre.length]? = some (overloadSpec pre c) := by
  have h : ({} : OverloadTracker).Counts [] := ⟨fun _ => rfl, fun _ _ => rfl⟩
  simpa using overload_run_from {} [] _ h pre post c rfl

/-- **C08 (as stated, false)**: `bob`, `bob` and `bob1` are given `bob`, `bob1` and `bob1`. -/
theorem overload_names_distinct_false :
    ¬ ∀ l : List (Option String × String), (∀ c ∈ l, c.1 = none) → (OverloadTracker.run {} l).Nodup := by
  intro h
  exact absurd (h [(none, "bob"), (none, "bob"), (none, "bob1")] (by decide)) (by decide)

/-- No function of a type is called like another one of it followed by a number. -/
def NoNumberedNames (l : List (Option String × String)) : Prop :=
  ∀ c ∈ l, ∀ d ∈ l, c.1 = d.1 → ∀ k, 0 < k → c.2 ≠ d.2 ++ dec k

theorem overload_spec_ne {l pre mid post : List (Option String × String)}
    {c d : Option String × String} (hl : NoNumberedNames l) (he : l = pre ++ c :: (mid ++ d :: post))
    (ht : c.1 = d.1) : overloadSpec pre c ≠ overloadSpec (pre ++ c :: mid) d := by
  have hc : c ∈ l := by simp [he]
  have hd : d ∈ l := by simp [he]
  unfold overloadSpec
  by_cases hcd : c = d
  · subst hcd
    have hcnt : (pre ++ c :: mid).count c = pre.count c + (mid.count c + 1) := by
      simp [List.count_append]
    rw [hcnt]
    have h0 : ¬ (pre.count c + (mid.count c + 1) = 0) := by omega
    rw [if_neg h0]
    by_cases h1 : pre.count c = 0
    · rw [if_pos h1]
      intro e
      exact hl c hc c hc rfl _ (by omega) e
    · rw [if_neg h1]
      intro e
      have e' : (dec (pre.count c)).toList = (dec (pre.count c + (mid.count c + 1))).toList := by
        have := congrArg String.toList e
        simpa using this
      have := dec_inj (String.toList_inj.1 e')
      omega
  · have hne : c.2 ≠ d.2 := fun e => hcd (Prod.ext ht e)
    have key : ∀ (a b : String) (j k : Nat), 0 < j → 0 < k →
        (∀ i, 0 < i → b ≠ a ++ dec i) → (∀ i, 0 < i → a ≠ b ++ dec i) → a ≠ b →
        a ++ dec j ≠ b ++ dec k := by
      intro a b j k hj hk h1 h2 hab e
      have e' : a.toList ++ (dec j).toList = b.toList ++ (dec k).toList := by
        simpa using congrArg String.toList e
      rcases List.append_eq_append_iff.1 e' with ⟨t, g1, g2⟩ | ⟨t, g1, g2⟩
      · by_cases ht : t = []
        · subst ht; exact hab (String.toList_inj.1 (by simpa using g1.symm))
        · obtain ⟨i, hi, rfl⟩ := prefix_dec j hj t ht ⟨_, g2.symm⟩
          exact h1 i hi (String.toList_inj.1 (by simpa using g1))
      · by_cases ht : t = []
        · subst ht; exact hab (String.toList_inj.1 (by simpa using g1))
        · obtain ⟨i, hi, rfl⟩ := prefix_dec k hk t ht ⟨_, g2.symm⟩
          exact h2 i hi (String.toList_inj.1 (by simpa using g1))
    split <;> split
    · exact hne
    · rename_i h1 h2
      exact hl c hc d hd ht _ (by omega)
    · rename_i h1 h2
      exact fun e => hl d hd c hc ht.symm _ (by omega) e.symm
    · rename_i h1 h2
      exact key _ _ _ _ (by omega) (by omega) (fun i hi => hl d hd c hc ht.symm i hi)
        (fun i hi => hl c hc d hd ht i hi) hne

/-- **C08 (partial)**: if no function of a type is called like another one of it followed by a number,
then the names given to two functions of one type are different. What is missing from C08 is exactly
the excluded kind of name. -/
theorem overload_names_distinct_partial (pre mid post : List (Option String × String))
    (c d : Option String × String) (hl : NoNumberedNames (pre ++ c :: (mid ++ d :: post)))
    (ht : c.1 = d.1) :
    ∃ x y, (OverloadTracker.run {} (pre ++ c :: (mid ++ d :: post)))[pre.length]? = some x ∧
      (OverloadTracker.run {} (pre ++ c :: (mid ++ d :: post)))[pre.length + mid.length + 1]? = some y ∧
      x ≠ y := by
  refine ⟨_, _, overload_run_spec pre _ c, ?_, overload_spec_ne hl rfl ht⟩
  have := overload_run_spec (pre ++ c :: mid) post d
  simpa [Nat.add_assoc] using this

/-- Two overloads of the same name in the same type always get different names, whatever else is
called. -/
theorem overload_same_name_distinct (pre mid : List (Option String × String))
    (c : Option String × String) :
    overloadSpec pre c ≠ overloadSpec (pre ++ c :: mid) c := by
  have hcnt : (pre ++ c :: mid).count c = pre.count c + (mid.count c + 1) := by
    simp [List.count_append]
  unfold overloadSpec
  rw [hcnt]
  rw [if_neg (show ¬ (pre.count c + (mid.count c + 1) = 0) by omega)]
  split
  · intro e
    have := congrArg (fun s => s.toList.length) e
    have hne := dec_ne_nil (pre.count c + (mid.count c + 1))
    simp at this
    exact hne (by rw [this]; rfl)
  · intro e
    have e' := congrArg String.toList e
    simp only [String.toList_append, List.append_cancel_left_eq] at e'
    have := dec_inj (String.toList_inj.1 e')
    omega

/-- Overloads of `get` and `set` in two types meet the condition. -/
example : NoNumberedNames [(some "A", "get"), (some "A", "get"), (some "B", "get"), (some "A", "set")] := by
  intro c hc d hd _ k hk e
  obtain ⟨x, h1, h2⟩ := endsDigit_append_dec d.2 k
  rw [← e] at h1
  simp only [List.mem_cons, List.not_mem_nil, or_false] at hc
  rcases hc with rfl | rfl | rfl | rfl <;> (simp at h1; subst h1; revert h2; decide)

example : OverloadTracker.run {} [(some "A", "get"), (some "A", "get"), (some "B", "get"), (none, "get"),
    (some "A", "get")] = ["get", "get1", "get", "get", "get2"] := by decide

/-! ## C09 -/

/-- The count kept for a string. -/
def BridgeNameTracker.cnt (t : BridgeNameTracker) (s : String) : Nat := (t.get? s).getD 0

/-- The text of a numbered name. -/
def numbered (p : String) (k : Nat) : String := p ++ "_autocxx" ++ dec k

theorem numbered_inj {p q : String} {j k : Nat} (h : numbered p j = numbered q k) : p = q ∧ j = k := by
  have e : (p ++ "_autocxx").toList ++ (dec j).toList = (q ++ "_autocxx").toList ++ (dec k).toList := by
    simpa [numbered] using congrArg String.toList h
  have last : ∀ r : String, ∀ c, (r ++ "_autocxx").toList.getLast? = some c → c.isDigit = false := by
    intro r c hc
    simp only [String.toList_append, List.getLast?_append] at hc
    have : ("_autocxx" : String).toList.getLast? = some 'x' := by decide
    rw [this] at hc
    simp at hc; subst hc; decide
  obtain ⟨h1, h2⟩ := append_digits_unique (last p) (last q) (dec_digit j) (dec_digit k) e
  refine ⟨?_, dec_inj (String.toList_inj.1 h2)⟩
  apply String.toList_inj.1
  simpa using h1

/-- How a name came about: the plain or qualified name itself, or a numbered one. -/
inductive BridgeOut (t : BridgeNameTracker) (r : BridgeReq) : BridgeNameTracker → String → Prop
  | plain (h : t.cnt r.plain = 0) : BridgeOut t r (t.insert r.plain 1) r.plain
  | qualified (h0 : t.cnt r.plain ≠ 0) (h : t.cnt r.qualified = 0) :
      BridgeOut t r (t.insert r.qualified 1) r.qualified
  | numbered (h0 : t.cnt r.plain ≠ 0) (h : t.cnt r.qualified ≠ 0) :
      BridgeOut t r (t.insert r.qualified (t.cnt r.qualified + 1))
        (numbered r.qualified (t.cnt r.qualified))

theorem bridge_getName (t : BridgeNameTracker) (r : BridgeReq) :
    BridgeOut t r (t.getName r).1 (t.getName r).2 := by
  unfold BridgeNameTracker.getName
  simp only
  split
  · exact .plain (by assumption)
  · split
    · exact .qualified (by assumption) (by assumption)
    · exact .numbered (by assumption) (by assumption)

theorem cnt_insert (t : BridgeNameTracker) (k s : String) (v : Nat) :
    BridgeNameTracker.cnt (t.insert k v) s = if k = s then v else t.cnt s := by
  unfold BridgeNameTracker.cnt
  rw [AMap.get?_insert]
  split <;> simp

/-- The condition under which names are distinct: no function's own name ends in `autocxx` followed by
a positive number. -/
def NoAutocxxNumber (r : BridgeReq) : Prop := ∀ (p : String) (k : Nat), r.found ≠ p ++ "autocxx" ++ dec k

theorem joinU_last (l : List String) (a : String) :
    joinU (l ++ [a]) = a ∨ ∃ p, joinU (l ++ [a]) = p ++ "_" ++ a := by
  induction l with
  | nil => exact Or.inl rfl
  | cons x l ih =>
    right
    have hne : l ++ [a] ≠ [] := by simp
    cases hl : l ++ [a] with
    | nil => exact absurd hl hne
    | cons y r =>
      rw [List.cons_append, hl]
      simp only [joinU]
      rw [hl] at ih
      rcases ih with ih | ⟨p, ih⟩
      · exact ⟨x, by rw [ih]⟩
      · exact ⟨x ++ "_" ++ p, by rw [ih]; simp [String.append_assoc]⟩

theorem joinU_last_multi (l : List String) (a : String) (hl : l ≠ []) :
    ∃ p, joinU (l ++ [a]) = p ++ "_" ++ a := by
  cases l with
  | nil => exact absurd rfl hl
  | cons x l =>
    cases h : l ++ [a] with
    | nil => simp at h
    | cons y r =>
      rw [List.cons_append, h]
      simp only [joinU]
      rw [← h]
      rcases joinU_last l a with ih | ⟨p, ih⟩
      · exact ⟨x, by rw [ih]⟩
      · exact ⟨x ++ "_" ++ p, by rw [ih]; simp [String.append_assoc]⟩

/-- A name ending in `_autocxx` and a number is not the plain name. -/
theorem plain_ne_numbered (r : BridgeReq) (h : NoAutocxxNumber r) (p : String) (k : Nat) :
    r.plain ≠ numbered p k := by
  unfold BridgeReq.plain numbered
  split
  · intro e
    obtain ⟨c, h1, h2⟩ := endsDigit_append_dec (p ++ "_autocxx") k
    rw [← e] at h1
    have : ("new_autocxx" : String).toList.getLast? = some 'x' := by decide
    rw [this] at h1; cases h1; revert h2; decide
  · intro e
    apply h (p ++ "_") k
    rw [e]
    simp only [String.append_assoc]
    rfl

/-- Nor is it the qualified name. -/
theorem qualified_ne_numbered (r : BridgeReq) (h : NoAutocxxNumber r) (p : String) (k : Nat) :
    r.qualified ≠ numbered p k := by
  have hl : r.ns ++ (r.ty.toList ++ [r.plain]) = (r.ns ++ r.ty.toList) ++ [r.plain] := by simp
  unfold BridgeReq.qualified
  rw [hl]
  by_cases hq : r.ns ++ r.ty.toList = []
  · rw [hq]
    exact plain_ne_numbered r h p k
  · obtain ⟨x, hx⟩ := joinU_last_multi _ r.plain hq
    rw [hx]
    intro e
    -- compare the parts after the last underscore
    have e' : (x ++ "_").toList ++ r.plain.toList =
        (p ++ "_").toList ++ ("autocxx".toList ++ (dec k).toList) := by
      have := congrArg String.toList e
      simp only [numbered, String.toList_append] at this
      have h2 : "_autocxx".toList = "_".toList ++ "autocxx".toList := by decide
      rw [h2] at this
      simpa [String.toList_append] using this
    rcases List.append_eq_append_iff.1 e' with ⟨t, g1, g2⟩ | ⟨t, g1, g2⟩
    · have hp : r.plain = String.ofList t ++ "autocxx" ++ dec k := by
        apply String.toList_inj.1; simp [g2]
      unfold BridgeReq.plain at hp
      split at hp
      · obtain ⟨c, h1, h2⟩ := endsDigit_append_dec (String.ofList t ++ "autocxx") k
        rw [← hp] at h1
        have : ("new_autocxx" : String).toList.getLast? = some 'x' := by decide
        rw [this] at h1; cases h1; revert h2; decide
      · exact h _ _ hp
    · rcases List.eq_nil_or_concat t with rfl | ⟨t', y, rfl⟩
      · have hp : r.plain = "" ++ "autocxx" ++ dec k := by
          apply String.toList_inj.1; simp at g2; simp [g2]
        unfold BridgeReq.plain at hp
        split at hp
        · obtain ⟨c, h1, h2⟩ := endsDigit_append_dec ("" ++ "autocxx") k
          rw [← hp] at h1
          have : ("new_autocxx" : String).toList.getLast? = some 'x' := by decide
          rw [this] at h1; cases h1; revert h2; decide
        · exact h _ _ hp
      · -- t ends in an underscore, but it is part of `autocxx` and digits
        have hy : y = '_' := by
          have h3 : (x ++ "_").toList.getLast? = some '_' := by simp
          rw [g1, List.concat_eq_append, ← List.append_assoc, List.getLast?_concat] at h3
          exact Option.some.inj h3
        subst hy
        have : '_' ∈ "autocxx".toList ++ (dec k).toList := by rw [g2]; simp
        rcases List.mem_append.1 this with h | h
        · revert h; decide
        · have := dec_digit k _ h
          revert this; decide

/-- What the tracker knows after having given out the names `outs`. -/
structure BridgeInv (t : BridgeNameTracker) (outs : List String) : Prop where
  given : ∀ s ∈ outs, t.cnt s ≠ 0 ∨ ∃ p k, s = numbered p k ∧ k < t.cnt p
  counted : ∀ s, t.cnt s ≠ 0 → s ∈ outs ∧ ∀ p k, s ≠ numbered p k

theorem bridge_step (t : BridgeNameTracker) (outs : List String) (h : BridgeInv t outs)
    (r : BridgeReq) (hr : NoAutocxxNumber r) :
    (t.getName r).2 ∉ outs ∧ BridgeInv (t.getName r).1 (outs ++ [(t.getName r).2]) := by
  have asIs : ∀ s, t.cnt s = 0 → (∀ p k, s ≠ numbered p k) →
      s ∉ outs ∧ BridgeInv (t.insert s 1) (outs ++ [s]) := by
    intro s h0 hs
    refine ⟨?_, ?_, ?_⟩
    · intro hm
      rcases h.given s hm with h1 | ⟨p, k, h1, _⟩
      · exact h1 h0
      · exact hs p k h1
    · intro x hx
      rcases List.mem_append.1 hx with hx | hx
      · rcases h.given x hx with h1 | ⟨p, k, h1, h2⟩
        · left; rw [cnt_insert]; split <;> simp_all
        · right
          refine ⟨p, k, h1, ?_⟩
          rw [cnt_insert]; split
          · subst_vars; omega
          · exact h2
      · simp at hx; subst hx
        left; rw [cnt_insert]; simp
    · intro x hx
      rw [cnt_insert] at hx
      split at hx
      · subst_vars; exact ⟨by simp, hs⟩
      · obtain ⟨a, b⟩ := h.counted x hx
        exact ⟨by simp [a], b⟩
  have hg := bridge_getName t r
  generalize BridgeNameTracker.getName t r = g at hg ⊢
  obtain ⟨t', o⟩ := g
  cases hg with
  | plain h0 => exact asIs _ h0 (plain_ne_numbered r hr)
  | qualified h0 h1 => exact asIs _ h1 (qualified_ne_numbered r hr)
  | numbered h0 h1 =>
    refine ⟨?_, ?_, ?_⟩
    · intro hm
      rcases h.given _ hm with g | ⟨p, k, g1, g2⟩
      · exact (h.counted _ g).2 _ _ rfl
      · obtain ⟨rfl, rfl⟩ := numbered_inj g1
        omega
    · intro x hx
      rcases List.mem_append.1 hx with hx | hx
      · rcases h.given x hx with g | ⟨p, k, g1, g2⟩
        · left; rw [cnt_insert]; split
          · omega
          · exact g
        · right
          refine ⟨p, k, g1, ?_⟩
          rw [cnt_insert]; split
          · subst_vars; omega
          · exact g2
      · simp at hx; subst hx
        right
        refine ⟨_, _, rfl, ?_⟩
        rw [cnt_insert, if_pos rfl]; omega
    · intro x hx
      rw [cnt_insert] at hx
      split at hx
      · subst_vars
        obtain ⟨a, b⟩ := h.counted _ h1
        exact ⟨by simp [a], b⟩
      · obtain ⟨a, b⟩ := h.counted x hx
        exact ⟨by simp [a], b⟩

theorem bridge_run_from (t : BridgeNameTracker) (outs : List String) (h : BridgeInv t outs)
    (ho : outs.Nodup) (rs : List BridgeReq) (hr : ∀ r ∈ rs, NoAutocxxNumber r) :
    (outs ++ t.run rs).Nodup := by
  induction rs generalizing t outs with
  | nil => simpa [BridgeNameTracker.run] using ho
  | cons r rs ih =>
    obtain ⟨h1, h2⟩ := bridge_step t outs h r (hr r (by simp))
    have := ih _ _ h2 (by
      rw [List.nodup_append]
      refine ⟨ho, by simp, ?_⟩
      intro a ha b hb
      simp at hb; subst hb
      rintro rfl; exact h1 ha) (fun x hx => hr x (by simp [hx]))
    simpa [BridgeNameTracker.run] using this

/-- **C09 (as stated, false)**: three functions whose bridge names collide. The name check (C06) then
refuses two of them. -/
theorem bridge_names_distinct_false : ¬ ∀ rs : List BridgeReq, (BridgeNameTracker.run [] rs).Nodup := by
  intro h
  exact absurd (h [⟨none, "do_autocxx1", []⟩, ⟨none, "do", []⟩, ⟨none, "do", []⟩]) (by decide)

/-- **C09 (partial)**: any sequence of functions, none of whose own names ends in `autocxx` followed by
a number, gets pairwise distinct names. -/
theorem bridge_names_distinct_partial (rs : List BridgeReq) (hr : ∀ r ∈ rs, NoAutocxxNumber r) :
    (BridgeNameTracker.run [] rs).Nodup := by
  have h : BridgeInv ([] : BridgeNameTracker) [] :=
    ⟨by simp, fun s hs => absurd rfl hs⟩
  simpa using bridge_run_from [] [] h (by simp) rs hr

/-- The tracker after naming a sequence. -/
def BridgeNameTracker.after (t : BridgeNameTracker) : List BridgeReq → BridgeNameTracker
  | [] => t
  | r :: rs => BridgeNameTracker.after (t.getName r).1 rs

theorem bridge_after_inv (t : BridgeNameTracker) (outs : List String) (h : BridgeInv t outs)
    (rs : List BridgeReq) (hr : ∀ r ∈ rs, NoAutocxxNumber r) :
    BridgeInv (t.after rs) (outs ++ t.run rs) := by
  induction rs generalizing t outs with
  | nil => simpa [BridgeNameTracker.run, BridgeNameTracker.after] using h
  | cons r rs ih =>
    obtain ⟨_, h2⟩ := bridge_step t outs h r (hr r (by simp))
    have := ih _ _ h2 (fun x hx => hr x (by simp [hx]))
    simpa [BridgeNameTracker.run, BridgeNameTracker.after] using this

theorem bridge_run_append (t : BridgeNameTracker) (rs : List BridgeReq) (r : BridgeReq) :
    t.run (rs ++ [r]) = t.run rs ++ [((t.after rs).getName r).2] := by
  induction rs generalizing t with
  | nil => rfl
  | cons x rs ih => simp [BridgeNameTracker.run, BridgeNameTracker.after, ih]

/-- **C09 (plain names are kept)**: a function keeps its plain name exactly when that has not been given
out before; otherwise it gets its qualified name, with a number if need be. -/
theorem bridge_plain_kept_partial (rs : List BridgeReq) (r : BridgeReq)
    (hr : ∀ x ∈ rs, NoAutocxxNumber x) (hl : NoAutocxxNumber r) :
    (BridgeNameTracker.run [] (rs ++ [r])).getLast? = some
      (((BridgeNameTracker.after [] rs).getName r).2) ∧
    (((BridgeNameTracker.after [] rs).getName r).2 = r.plain ↔
      r.plain ∉ BridgeNameTracker.run [] rs) ∧
    (r.plain ∈ BridgeNameTracker.run [] rs → r.qualified ∉ BridgeNameTracker.run [] rs →
      ((BridgeNameTracker.after [] rs).getName r).2 = r.qualified) ∧
    (r.plain ∈ BridgeNameTracker.run [] rs → r.qualified ∈ BridgeNameTracker.run [] rs →
      ∃ k, 0 < k ∧ ((BridgeNameTracker.after [] rs).getName r).2 = r.qualified ++ "_autocxx" ++ dec k) := by
  have h0 : BridgeInv ([] : BridgeNameTracker) [] := ⟨by simp, fun s hs => absurd rfl hs⟩
  have hi := bridge_after_inv [] [] h0 rs hr
  simp only [List.nil_append] at hi
  have asIs : ∀ s, (∀ p k, s ≠ numbered p k) →
      ((BridgeNameTracker.after [] rs).cnt s = 0 ↔ s ∉ BridgeNameTracker.run [] rs) := by
    intro s hs
    constructor
    · intro hz hm
      rcases hi.given s hm with g | ⟨p, k, g, _⟩
      · exact g hz
      · exact hs p k g
    · intro hm
      refine Classical.byContradiction fun hz => hm (hi.counted s hz).1
  have hp := asIs _ (plain_ne_numbered r hl)
  have hq := asIs _ (qualified_ne_numbered r hl)
  refine ⟨by rw [bridge_run_append]; simp, ?_, ?_, ?_⟩
  · have hg := bridge_getName (BridgeNameTracker.after [] rs) r
    generalize BridgeNameTracker.getName (BridgeNameTracker.after [] rs) r = g at hg ⊢
    obtain ⟨t', o⟩ := g
    cases hg with
    | plain h => exact ⟨fun _ => hp.1 h, fun _ => rfl⟩
    | qualified h h' =>
      rw [← hp]
      refine ⟨fun e => ?_, fun e => absurd e h⟩
      rw [← e]; exact h'
    | numbered h h' =>
      rw [← hp]
      exact ⟨fun e => absurd e.symm (plain_ne_numbered r hl _ _), fun e => absurd e h⟩
  · intro h1 h2
    have h1' : ¬ (BridgeNameTracker.after [] rs).cnt r.plain = 0 := fun e => hp.1 e h1
    have hg := bridge_getName (BridgeNameTracker.after [] rs) r
    generalize BridgeNameTracker.getName (BridgeNameTracker.after [] rs) r = g at hg ⊢
    obtain ⟨t', o⟩ := g
    cases hg with
    | plain h => exact absurd h h1'
    | qualified h h' => rfl
    | numbered h h' => exact absurd (hq.2 h2) h'
  · intro h1 h2
    have h1' : ¬ (BridgeNameTracker.after [] rs).cnt r.plain = 0 := fun e => hp.1 e h1
    have h2' : ¬ (BridgeNameTracker.after [] rs).cnt r.qualified = 0 := fun e => hq.1 e h2
    have hg := bridge_getName (BridgeNameTracker.after [] rs) r
    generalize BridgeNameTracker.getName (BridgeNameTracker.after [] rs) r = g at hg ⊢
    obtain ⟨t', o⟩ := g
    cases hg with
    | plain h => exact absurd h h1'
    | qualified h h' => exact absurd h' h2'
    | numbered h h' => exact ⟨_, by omega, rfl⟩

/-- **C09 (`new`)**: no function is ever called `new` in the bridge. -/
theorem bridge_never_new (t : BridgeNameTracker) (rs : List BridgeReq) : "new" ∉ t.run rs := by
  induction rs generalizing t with
  | nil => simp [BridgeNameTracker.run]
  | cons r rs ih =>
    simp only [BridgeNameTracker.run, List.mem_cons, not_or]
    refine ⟨?_, ih _⟩
    have hu : ∀ a b : String, "new" ≠ a ++ "_" ++ b := by
      intro a b e
      have : '_' ∈ ("new" : String).toList := by rw [e]; simp
      revert this; decide
    have hplain : "new" ≠ r.plain := by
      unfold BridgeReq.plain
      split
      · decide
      · rename_i h; exact fun e => h e.symm
    have hqual : t.cnt r.plain ≠ 0 → t.cnt r.qualified = 0 → "new" ≠ r.qualified := by
      intro h0 h1
      have hl : r.ns ++ (r.ty.toList ++ [r.plain]) = (r.ns ++ r.ty.toList) ++ [r.plain] := by simp
      unfold BridgeReq.qualified at h1 ⊢
      rw [hl] at h1 ⊢
      by_cases hq : r.ns ++ r.ty.toList = []
      · rw [hq] at h1; exact absurd h1 h0
      · obtain ⟨x, hx⟩ := joinU_last_multi _ r.plain hq
        rw [hx]; exact hu _ _
    have hg := bridge_getName t r
    generalize BridgeNameTracker.getName t r = g at hg ⊢
    obtain ⟨t', o⟩ := g
    cases hg with
    | plain h => exact hplain
    | qualified h h' => exact hqual h h'
    | numbered h h' =>
      show "new" ≠ r.qualified ++ "_autocxx" ++ dec (t.cnt r.qualified)
      have e : ("_autocxx" : String) = "_" ++ "autocxx" := by decide
      rw [e, ← String.append_assoc, String.append_assoc]
      exact hu _ _

/-- A sequence as in the code's own unit test meets the conditions. -/
example : let rs : List BridgeReq := [⟨none, "do", []⟩, ⟨none, "do", []⟩, ⟨none, "new", []⟩,
      ⟨some "ty1", "do", []⟩, ⟨some "ty1", "do", []⟩, ⟨some "ty", "do", ["A", "B"]⟩]
    (∀ r ∈ rs, NoAutocxxNumber r) ∧ BridgeNameTracker.run [] rs =
      ["do", "do_autocxx1", "new_autocxx", "ty1_do", "ty1_do_autocxx1", "A_B_ty_do"] := by
  refine ⟨?_, by decide⟩
  intro r hr p k e
  obtain ⟨x, h1, h2⟩ := endsDigit_append_dec (p ++ "autocxx") k
  rw [← e] at h1
  simp only [List.mem_cons, List.not_mem_nil, or_false] at hr
  rcases hr with rfl | rfl | rfl | rfl | rfl | rfl <;> (simp at h1; subst h1; revert h2; decide)

end Verif
