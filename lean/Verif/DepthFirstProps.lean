import Verif.DepthFirst

/-!
# C05: types are processed after the types they contain
-/

set_option autoImplicit false

namespace Verif
variable {α : Type}

/-- A set of items which all wait on each other: every one of them has a dependency on one of them. -/
def Stuck (name : α → QName) (deps : α → List QName) (S : List α) : Prop :=
  S ≠ [] ∧ ∀ a ∈ S, ∃ b ∈ S, name b ∈ deps a

/-- The order respects dependencies among the items of `l`: everything an item depends on which is in
`l` comes earlier. -/
def DepOrdered (name : α → QName) (deps : α → List QName) (l out : List α) : Prop :=
  ∀ p a s, out = p ++ a :: s → ∀ b ∈ l, name b ∈ deps a → ∃ c ∈ p, name c = name b

theorem dfScan_spec (name : α → QName) (deps : α → List QName) (yet : List QName) (f : α)
    (before after : List α) (hf : (before ++ after).head? = some f)
    (hb : ∀ a ∈ before, (deps a).any (· ∈ yet) = true)
    (hn : ((before ++ after).map name).Nodup) :
    (∃ a q, dfScan name deps yet (some (name f)) before after = .yield a q ∧
      (∀ d ∈ deps a, d ∉ yet) ∧ (a :: q).Perm (before ++ after)) ∨
    (∃ q, dfScan name deps yet (some (name f)) before after = .panic q ∧
      q.Perm (before ++ after) ∧ ∀ a ∈ q, ∃ d ∈ deps a, d ∈ yet) ∨
    (after = [] ∧ before ≠ []) := by
  induction after generalizing before with
  | nil =>
    right; right
    refine ⟨rfl, ?_⟩
    rintro rfl; simp at hf
  | cons c after ih =>
    unfold dfScan
    by_cases hc : (deps c).any (· ∈ yet) = true
    · rw [if_pos hc]
      cases after with
      | nil =>
        -- everything has been rotated: the front is the first candidate again
        have hhead : (([] : List α) ++ (before ++ [c])).head? = some f := by simpa using hf
        rw [hhead]
        simp only [Option.map_some, if_true]
        refine Or.inr (Or.inl ⟨_, rfl, by simp, ?_⟩)
        intro a ha
        simp only [List.nil_append, List.mem_append, List.mem_cons, List.not_mem_nil, or_false] at ha
        have : (deps a).any (· ∈ yet) = true := by
          rcases ha with ha | rfl
          · exact hb a ha
          · exact hc
        simpa using this
      | cons x after' =>
        have hne : ¬ ((((x :: after') ++ (before ++ [c])).head?).map name = some (name f)) := by
          simp only [List.cons_append, List.head?_cons, Option.map_some, Option.some.injEq]
          intro e
          have hfm : f ∈ before ++ [c] := by
            cases before with
            | nil => simp at hf; simp [hf]
            | cons b bs => simp at hf; simp [hf]
          rw [show before ++ c :: x :: after' = (before ++ [c]) ++ (x :: after') by simp,
            List.map_append, List.nodup_append] at hn
          exact hn.2.2 (name f) (List.mem_map.2 ⟨f, hfm, rfl⟩) (name x) (by simp) e.symm
        rw [if_neg hne]
        have := ih (before ++ [c]) (by simpa using hf) (by
          intro a ha
          rcases List.mem_append.1 ha with ha | ha
          · exact hb a ha
          · simp at ha; exact ha ▸ hc) (by simpa using hn)
        simpa using this
    · rw [if_neg hc]
      refine Or.inl ⟨c, after ++ before, rfl, ?_, ?_⟩
      · intro d hd hy
        exact hc (List.any_eq_true.2 ⟨d, hd, by simpa using hy⟩)
      · have : (c :: after ++ before).Perm (before ++ c :: after) := List.perm_append_comm
        exact this

theorem dfNext_spec (name : α → QName) (deps : α → List QName) (yet : List QName) (q : List α)
    (hn : (q.map name).Nodup) :
    (q = [] ∧ dfNext name deps yet q = .done) ∨
    (∃ a q', dfNext name deps yet q = .yield a q' ∧ (∀ d ∈ deps a, d ∉ yet) ∧ (a :: q').Perm q) ∨
    (∃ q', dfNext name deps yet q = .panic q' ∧ q ≠ [] ∧ q'.Perm q ∧ ∀ a ∈ q', ∃ d ∈ deps a, d ∈ yet) := by
  cases q with
  | nil => exact Or.inl ⟨rfl, rfl⟩
  | cons f q =>
    right
    rcases dfScan_spec name deps yet f [] (f :: q) rfl (by simp) (by simpa using hn) with h | h | h
    · exact Or.inl h
    · obtain ⟨q', h1, h2, h3⟩ := h
      exact Or.inr ⟨q', h1, by simp, by simpa using h2, h3⟩
    · exact absurd h.2 (by simp)

theorem dfRun_spec (name : α → QName) (deps : α → List QName) (q : List α) (yet : List QName)
    (hn : (q.map name).Nodup) (hy : ∀ n, n ∈ yet ↔ n ∈ q.map name) :
    (∃ out, dfRun name deps yet q = .ok out ∧ out.Perm q ∧ DepOrdered name deps q out) ∨
    (∃ out rest, dfRun name deps yet q = .panic out rest ∧ (out ++ rest).Perm q ∧
      Stuck name deps rest) := by
  generalize hl : q.length = n
  induction n generalizing q yet with
  | zero =>
    have : q = [] := List.length_eq_zero_iff.1 hl
    subst this
    left
    refine ⟨[], by unfold dfRun; rfl, .refl _, ?_⟩
    intro p a s h; simp at h
  | succ n ih =>
    rcases dfNext_spec name deps yet q hn with ⟨rfl, _⟩ | ⟨a, q', h1, h2, h3⟩ | ⟨q', h1, h2, h3, h4⟩
    · simp at hl
    · have hlen : q'.length = n := by
        have := h3.length_eq; simp at this; omega
      have hn' : ((a :: q').map name).Nodup := (h3.map name).nodup_iff.2 hn
      simp only [List.map_cons, List.nodup_cons] at hn'
      have hy' : ∀ m, m ∈ yet.filter (· ≠ name a) ↔ m ∈ q'.map name := by
        intro m
        simp only [List.mem_filter, decide_eq_true_eq, hy]
        have hm : m ∈ q.map name ↔ m = name a ∨ m ∈ q'.map name := by
          rw [← (h3.map name).mem_iff]; simp
        rw [hm]
        constructor
        · rintro ⟨h | h, hne⟩
          · exact absurd h hne
          · exact h
        · intro h
          exact ⟨Or.inr h, fun e => hn'.1 (e ▸ h)⟩
      have hrun : dfRun name deps yet q = (dfRun name deps (yet.filter (· ≠ name a)) q').cons a := by
        rw [dfRun]
        split
        · rename_i h; rw [h1] at h; cases h; rfl
        · rename_i h; rw [h1] at h; cases h
        · rename_i h; rw [h1] at h; cases h
        · rename_i h; rw [h1] at h; cases h
      rcases ih q' _ hn'.2 hy' hlen with ⟨out, g1, g2, g3⟩ | ⟨out, rest, g1, g2, g3⟩
      · left
        refine ⟨a :: out, by rw [hrun, g1]; rfl, (g2.cons a).trans h3, ?_⟩
        intro p x s he b hb hbd
        cases p with
        | nil =>
          simp at he
          obtain ⟨rfl, rfl⟩ := he
          exact absurd ((hy (name b)).2 (List.mem_map.2 ⟨b, hb, rfl⟩)) (h2 _ hbd)
        | cons y p =>
          simp at he
          obtain ⟨rfl, he⟩ := he
          rcases List.mem_cons.1 (h3.mem_iff.2 hb) with hba | hb'
          · exact ⟨a, by simp, by rw [hba]⟩
          · obtain ⟨c, hc, e⟩ := g3 p x s he b hb' hbd
            exact ⟨c, by simp [hc], e⟩
      · right
        refine ⟨a :: out, rest, by rw [hrun, g1]; rfl, ?_, g3⟩
        exact (g2.cons a).trans h3
    · right
      refine ⟨[], q', ?_, by simpa using h3, ?_, ?_⟩
      · rw [dfRun]
        split
        · rename_i h; rw [h1] at h; cases h
        · rename_i h; rw [h1] at h; cases h
        · rename_i h; rw [h1] at h; cases h; rfl
        · rename_i h; rw [h1] at h; cases h
      · rintro rfl
        exact h2 (List.nil_perm.1 h3)
      · intro a ha
        obtain ⟨d, hd, hdy⟩ := h4 a ha
        obtain ⟨b, hb, rfl⟩ := List.mem_map.1 ((hy d).1 hdy)
        exact ⟨b, h3.mem_iff.2 hb, hd⟩

/-! ## C05 -/

/-- **C05**: the iteration terminates (it is a total function), and either yields every item exactly
once, each after all of its dependencies in the collection, or panics after having yielded some, with
the remaining items all waiting on each other. -/
theorem fields_and_bases_first_spec (name : α → QName) (deps : α → List QName) (l : List α)
    (hn : (l.map name).Nodup) :
    (∃ out, fieldsAndBasesFirst name deps l = .ok out ∧ out.Perm l ∧ DepOrdered name deps l out) ∨
    (∃ out rest, fieldsAndBasesFirst name deps l = .panic out rest ∧ (out ++ rest).Perm l ∧
      Stuck name deps rest) :=
  dfRun_spec name deps l _ hn (fun _ => Iff.rfl)

/-- **C05 (when it reports a cycle)**: it succeeds exactly when no set of items of the collection all
wait on each other. -/
theorem fields_and_bases_first_ok_iff (name : α → QName) (deps : α → List QName) (l : List α)
    (hn : (l.map name).Nodup) :
    (∃ out, fieldsAndBasesFirst name deps l = .ok out) ↔
      ¬ ∃ S : List α, (∀ a ∈ S, a ∈ l) ∧ Stuck name deps S := by
  constructor
  · rintro ⟨out, h⟩ ⟨S, hS, hne, hst⟩
    rcases fields_and_bases_first_spec name deps l hn with ⟨out, h1, h2, h3⟩ | ⟨o, r, h1, _⟩
    · rw [h1] at h; cases h
      -- no prefix of the output can contain an element of S
      have key : ∀ k (p s : List α), p.length = k → out = p ++ s →
          ∀ a ∈ S, ¬ ∃ c ∈ p, name c = name a := by
        intro k
        induction k with
        | zero =>
          intro p s hp _ a _
          have : p = [] := List.length_eq_zero_iff.1 hp
          subst this; simp
        | succ k ih =>
          intro p s hp he a ha
          obtain ⟨p', x, rfl⟩ : ∃ p' x, p = p' ++ [x] := by
            rcases List.eq_nil_or_concat p with rfl | ⟨p', x, e⟩
            · simp at hp
            · exact ⟨p', x, by simpa using e⟩
          have hp' : p'.length = k := by simpa using hp
          have he' : out = p' ++ (x :: s) := by simpa using he
          rintro ⟨c, hc, e⟩
          rcases List.mem_append.1 hc with hc | hc
          · exact ih p' _ hp' he' a ha ⟨c, hc, e⟩
          · simp at hc; subst hc
            -- x has the name of a, hence is a
            have hxl : c ∈ l := h2.mem_iff.1 (by rw [he']; simp)
            have hxa : c = a := by
              have haL := hS a ha
              clear h2 h3 he he' ih hst h1 hS
              induction l with
              | nil => cases hxl
              | cons y l ihl =>
                simp only [List.map_cons, List.nodup_cons, List.mem_map, not_exists, not_and] at hn
                rcases List.mem_cons.1 hxl with rfl | hx <;> rcases List.mem_cons.1 haL with rfl | hy
                · rfl
                · exact absurd e.symm (hn.1 a hy)
                · exact absurd e (hn.1 c hx)
                · exact ihl hn.2 hx hy
            subst hxa
            obtain ⟨b, hb, hbd⟩ := hst c ha
            obtain ⟨z, hz, ez⟩ := h3 p' c s he' b (hS b hb) hbd
            exact ih p' _ hp' he' b hb ⟨z, hz, ez⟩
      obtain ⟨a, ha⟩ := List.exists_mem_of_ne_nil _ hne
      exact key out.length out [] rfl (by simp) a ha ⟨a, h2.mem_iff.2 (hS a ha), rfl⟩
    · rw [h1] at h; cases h
  · intro hno
    rcases fields_and_bases_first_spec name deps l hn with ⟨out, h1, _⟩ | ⟨o, r, _, h2, h3⟩
    · exact ⟨out, h1⟩
    · exact absurd ⟨r, fun a ha => h2.mem_iff.1 (by simp [ha]), h3⟩ hno

/-- The example of the code's own unit test (depth_first.rs:95-121): `b` needs `a` and `c`, `c` needs
`a`. -/
example : let l : List (QName × List QName) := [(⟨[], "a"⟩, []), (⟨[], "b"⟩, [⟨[], "a"⟩, ⟨[], "c"⟩]),
      (⟨[], "c"⟩, [⟨[], "a"⟩])]
    (l.map (·.1)).Nodup ∧ fieldsAndBasesFirst (·.1) (·.2) l =
      .ok [(⟨[], "a"⟩, []), (⟨[], "c"⟩, [⟨[], "a"⟩]), (⟨[], "b"⟩, [⟨[], "a"⟩, ⟨[], "c"⟩])] := by
  refine ⟨by decide, ?_⟩
  simp [fieldsAndBasesFirst, dfRun, dfNext, dfScan, DfRun.cons]

end Verif
