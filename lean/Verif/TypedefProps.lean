import Verif.TypeConv
import Mathlib.Logic.Relation
import Mathlib.Data.List.Basic
import Mathlib.Data.List.Perm.Subperm

/-!
# Following typedefs (C21)
-/

set_option autoImplicit false

namespace Verif

open Relation (ReflTransGen TransGen)

/-- Whether a name lies in one of the modules bindgen makes for an anonymous namespace. -/
def InAnonymousNamespace (q : QName) : Prop := ∃ s ∈ q.ns ++ [q.name], "_bindgen_mod".toList <+: s.toList

/-- `q` is a typedef of the type written `segs<args>`, whose name is `r`. -/
def TypedefOf (m : AMap QName Ty) (q : QName) (segs : List String) (args : List Ty) (r : QName) : Prop :=
  AMap.get? m q = some (.path segs args) ∧ QName.ofTypePath segs = some r

/-- `q` is a typedef of a named type `r` which has a name outside this file. -/
def Hop (m : AMap QName Ty) (q r : QName) : Prop :=
  (∃ segs args, TypedefOf m q segs args r) ∧ ¬ InAnonymousNamespace r

/-- Where a chain of typedefs ends. `none`: the name is no typedef at all. -/
inductive EndsAt (m : AMap QName Ty) : QName → Option Ty → Prop
  | notTypedef {q : QName} (h : AMap.get? m q = none) : EndsAt m q none
  | unnamed {q : QName} {t : Ty} (h : AMap.get? m q = some t) (ht : ∀ s a, t ≠ .path s a) : EndsAt m q (some t)
  | last {q r : QName} {segs : List String} {args : List Ty} (h : TypedefOf m q segs args r)
      (ha : ¬ InAnonymousNamespace r) (hr : EndsAt m r none) : EndsAt m q (some (.path segs args))
  | hop {q r : QName} {t : Ty} (h : Hop m q r) (hr : EndsAt m r (some t)) : EndsAt m q (some t)

/-- The chain runs into a cycle which goes through `x`. -/
def LoopsAt (m : AMap QName Ty) (q x : QName) : Prop := ReflTransGen (Hop m) q x ∧ TransGen (Hop m) x x

/-- The chain runs into a type in an anonymous namespace. -/
def HitsAnonymous (m : AMap QName Ty) (q : QName) : Prop :=
  ∃ x segs args r, ReflTransGen (Hop m) q x ∧ TypedefOf m x segs args r ∧ InAnonymousNamespace r

/-- The chain runs into a typedef of an empty path (or of the bare word `root` or `output`). -/
def HitsEmptyPath (m : AMap QName Ty) (q : QName) : Prop :=
  ∃ x segs args, ReflTransGen (Hop m) q x ∧ AMap.get? m x = some (.path segs args) ∧
    QName.ofTypePath segs = none

theorem fromSegs_list {l : List String} {q : QName} (h : QName.fromSegs l = some q) : q.ns ++ [q.name] = l := by
  induction l generalizing q with
  | nil => cases h
  | cons a r ih =>
    cases r with
    | nil => cases h; rfl
    | cons b r =>
      simp only [QName.fromSegs, Option.map_eq_some_iff] at h
      obtain ⟨q', hq', rfl⟩ := h
      simp [← ih hq']

theorem anonymous_iff {segs : List String} {q : QName} (h : QName.ofTypePath segs = some q) :
    (segs.any fun s => startsWith s "_bindgen_mod") = true ↔ InAnonymousNamespace q := by
  have key : ∀ l : List String, QName.fromSegs l = some q →
      ((l.any fun s => startsWith s "_bindgen_mod") = true ↔ InAnonymousNamespace q) := by
    intro l hl
    rw [← fromSegs_list hl]
    simp only [List.any_eq_true, InAnonymousNamespace, startsWith, List.isPrefixOf_iff_prefix]
  cases segs with
  | nil => cases h
  | cons s r =>
    simp only [QName.ofTypePath] at h
    split at h
    · rename_i hs
      rw [List.any_cons]
      have : startsWith s "_bindgen_mod" = false := by rcases hs with rfl | rfl <;> decide
      rw [this, Bool.false_or]
      exact key r h
    · exact key _ h

theorem hop_unique {m : AMap QName Ty} {q r r' : QName} (h : Hop m q r) (h' : Hop m q r') : r = r' := by
  obtain ⟨⟨s, a, h1, h2⟩, _⟩ := h
  obtain ⟨⟨s', a', h1', h2'⟩, _⟩ := h'
  rw [h1] at h1'
  cases h1'
  exact Option.some.inj (h2.symm.trans h2')

theorem hop_right_unique (m : AMap QName Ty) : Relator.RightUnique (Hop m) :=
  fun _ _ _ h h' => hop_unique h h'

/-- What the loop's result means. -/
theorem resolveLoop_sound {m : AMap QName Ty} : ∀ (fuel : Nat) (enc : List QName) (tn : QName) (prev : Option Ty),
    (∀ e ∈ enc, ReflTransGen (Hop m) e tn ∧ ¬ InAnonymousNamespace e) →
    match resolveLoop m fuel enc tn prev with
    | .ok r => (EndsAt m tn none ∧ r = prev) ∨ ∃ t, r = some t ∧ EndsAt m tn (some t)
    | .err e => (∃ x, e = .infinitelyRecursiveTypedef x ∧ LoopsAt m tn x) ∨
        (e = .typedefToTypeInAnonymousNamespace ∧ HitsAnonymous m tn)
    | .panic => HitsEmptyPath m tn
    | .outOfFuel => True
  | 0, _, _, _, _ => trivial
  | fuel + 1, enc, tn, prev, henc => by
    rw [resolveLoop]
    cases hg : AMap.get? m tn with
    | none => exact .inl ⟨.notTypedef hg, rfl⟩
    | some t =>
      cases t with
      | path segs args =>
        dsimp only
        cases hp : QName.ofTypePath segs with
        | none => exact ⟨tn, segs, args, .refl, hg, hp⟩
        | some tn' =>
          dsimp only
          by_cases hin : tn' ∈ enc
          · rw [if_pos hin]
            obtain ⟨h1, h2⟩ := henc _ hin
            exact .inl ⟨tn, rfl, .refl, TransGen.trans_left (.single ⟨⟨segs, args, hg, hp⟩, h2⟩) h1⟩
          · rw [if_neg hin]
            by_cases han : (segs.any fun s => startsWith s "_bindgen_mod") = true
            · rw [if_pos han]
              exact .inr ⟨rfl, tn, segs, args, tn', .refl, ⟨hg, hp⟩, (anonymous_iff hp).1 han⟩
            · rw [if_neg han]
              have hna : ¬ InAnonymousNamespace tn' := fun h => han ((anonymous_iff hp).2 h)
              have hhop : Hop m tn tn' := ⟨⟨segs, args, hg, hp⟩, hna⟩
              have ih := resolveLoop_sound fuel (tn' :: enc) tn' (some (.path segs args)) (by
                intro e he
                rcases List.mem_cons.1 he with rfl | he
                · exact ⟨.refl, hna⟩
                · exact ⟨(henc e he).1.tail hhop, (henc e he).2⟩)
              revert ih
              cases resolveLoop m fuel (tn' :: enc) tn' (some (.path segs args)) with
              | ok r =>
                intro ih
                rcases ih with ⟨h1, rfl⟩ | ⟨t, rfl, h⟩
                · exact .inr ⟨_, rfl, .last ⟨hg, hp⟩ hna h1⟩
                · exact .inr ⟨t, rfl, .hop hhop h⟩
              | err e =>
                intro ih
                rcases ih with ⟨x, rfl, h1, h2⟩ | ⟨rfl, x, s, a, r, h1, h2⟩
                · exact .inl ⟨x, rfl, h1.head hhop, h2⟩
                · exact .inr ⟨rfl, x, s, a, r, h1.head hhop, h2⟩
              | panic =>
                rintro ⟨x, s, a, h1, h2⟩
                exact ⟨x, s, a, h1.head hhop, h2⟩
              | outOfFuel => exact fun _ => trivial
      | ref mu lt e => exact .inr ⟨_, rfl, .unnamed hg (by intros; simp)⟩
      | ptr mu e => exact .inr ⟨_, rfl, .unnamed hg (by intros; simp)⟩
      | array e n => exact .inr ⟨_, rfl, .unnamed hg (by intros; simp)⟩
      | other s => exact .inr ⟨_, rfl, .unnamed hg (by intros; simp)⟩

/-- The names that typedefs lead to. -/
def targetNames (m : AMap QName Ty) : List QName :=
  m.filterMap fun e => match e.2 with
    | .path segs _ => QName.ofTypePath segs
    | _ => none

theorem resolveLoop_fuel {m : AMap QName Ty} : ∀ (fuel : Nat) (enc : List QName) (tn : QName) (prev : Option Ty),
    enc.Nodup → enc ⊆ targetNames m → m.length < fuel + enc.length →
    resolveLoop m fuel enc tn prev ≠ .outOfFuel
  | 0, enc, _, _, hnd, hsub, hlt => by
    intro _
    have h1 := (List.Nodup.subperm hnd hsub).length_le
    have h2 : (targetNames m).length ≤ m.length := List.length_filterMap_le _ _
    omega
  | fuel + 1, enc, tn, prev, hnd, hsub, hlt => by
    rw [resolveLoop]
    cases hg : AMap.get? m tn with
    | none => simp
    | some t =>
      cases t with
      | path segs args =>
        dsimp only
        cases hp : QName.ofTypePath segs with
        | none => simp
        | some tn' =>
          dsimp only
          by_cases hin : tn' ∈ enc
          · simp [hin]
          · rw [if_neg hin]
            split
            · simp
            · refine resolveLoop_fuel fuel _ _ _ (List.nodup_cons.2 ⟨hin, hnd⟩) ?_ (by simp; omega)
              refine List.cons_subset.2 ⟨?_, hsub⟩
              exact List.mem_filterMap.2 ⟨_, AMap.get?_mem hg, by simpa using hp⟩
      | ref mu lt e => simp
      | ptr mu e => simp
      | array e n => simp
      | other s => simp

/-- **C21**: following typedefs always terminates. -/
theorem resolve_terminates (m : AMap QName Ty) (q : QName) : resolveTypedef m q ≠ .outOfFuel :=
  resolveLoop_fuel _ _ _ _ .nil (by simp) (by simp)

theorem endsAt_no_loop {m : AMap QName Ty} {q : QName} {r : Option Ty} (h : EndsAt m q r) (x : QName) :
    ¬ LoopsAt m q x := by
  have step : ∀ {q r : QName}, Hop m q r → LoopsAt m q x → LoopsAt m r x := by
    rintro q r hh ⟨h1, h2⟩
    rcases ReflTransGen.cases_head h1 with rfl | ⟨c, hc, h1⟩
    · obtain ⟨c, hc, h3⟩ := TransGen.head'_iff.1 h2
      exact ⟨(hop_unique hh hc) ▸ h3, h2⟩
    · exact ⟨(hop_unique hh hc) ▸ h1, h2⟩
  have stop : ∀ {q : QName}, (∀ r, ¬ Hop m q r) → ¬ LoopsAt m q x := by
    rintro q hh ⟨h1, h2⟩
    rcases ReflTransGen.cases_head h1 with rfl | ⟨c, hc, _⟩
    · obtain ⟨c, hc, _⟩ := TransGen.head'_iff.1 h2
      exact hh _ hc
    · exact hh _ hc
  induction h with
  | notTypedef h => exact stop (by rintro r ⟨⟨s, a, h', _⟩, _⟩; rw [h] at h'; cases h')
  | unnamed h ht => exact stop (by rintro r ⟨⟨s, a, h', _⟩, _⟩; rw [h] at h'; exact ht _ _ (Option.some.inj h'))
  | last h ha hr ih => exact fun hl => ih (step ⟨⟨_, _, h⟩, ha⟩ hl)
  | hop h hr ih => exact fun hl => ih (step h hl)

theorem endsAt_no_stop {m : AMap QName Ty} {q : QName} {r : Option Ty} (h : EndsAt m q r)
    (P : QName → Prop) (hP : ∀ x, P x → ∃ s a, AMap.get? m x = some (.path s a))
    (hH : ∀ x y, P x → ¬ Hop m x y) : ¬ ∃ x, ReflTransGen (Hop m) q x ∧ P x := by
  have step : ∀ {q r : QName}, Hop m q r → (∃ x, ReflTransGen (Hop m) q x ∧ P x) →
      ∃ x, ReflTransGen (Hop m) r x ∧ P x := by
    rintro q r hh ⟨x, h1, h2⟩
    rcases ReflTransGen.cases_head h1 with rfl | ⟨c, hc, h1⟩
    · exact absurd hh (hH _ _ h2)
    · exact ⟨x, (hop_unique hh hc) ▸ h1, h2⟩
  induction h with
  | notTypedef h =>
    rintro ⟨x, h1, h2⟩
    rcases ReflTransGen.cases_head h1 with rfl | ⟨c, ⟨⟨s, a, h', _⟩, _⟩, _⟩
    · obtain ⟨s, a, h'⟩ := hP _ h2; rw [h] at h'; cases h'
    · rw [h] at h'; cases h'
  | unnamed h ht =>
    rintro ⟨x, h1, h2⟩
    rcases ReflTransGen.cases_head h1 with rfl | ⟨c, ⟨⟨s, a, h', _⟩, _⟩, _⟩
    · obtain ⟨s, a, h'⟩ := hP _ h2; rw [h] at h'; exact ht _ _ (Option.some.inj h')
    · rw [h] at h'; exact ht _ _ (Option.some.inj h')
  | last h ha hr ih => exact fun hl => ih (step ⟨⟨_, _, h⟩, ha⟩ hl)
  | hop h hr ih => exact fun hl => ih (step h hl)

theorem endsAt_no_anonymous {m : AMap QName Ty} {q : QName} {r : Option Ty} (h : EndsAt m q r) :
    ¬ HitsAnonymous m q := by
  rintro ⟨x, s, a, y, h1, h2, h3⟩
  refine endsAt_no_stop h (fun x => ∃ s a y, TypedefOf m x s a y ∧ InAnonymousNamespace y) ?_ ?_
    ⟨x, h1, s, a, y, h2, h3⟩
  · rintro x ⟨s, a, y, h, _⟩; exact ⟨s, a, h.1⟩
  · rintro x z ⟨s, a, y, h, hy⟩ ⟨⟨s', a', h'⟩, hz⟩
    have := h.1.symm.trans h'.1
    cases this
    exact hz (Option.some.inj (h.2.symm.trans h'.2) ▸ hy)

theorem endsAt_no_empty {m : AMap QName Ty} {q : QName} {r : Option Ty} (h : EndsAt m q r) :
    ¬ HitsEmptyPath m q := by
  rintro ⟨x, s, a, h1, h2, h3⟩
  refine endsAt_no_stop h (fun x => ∃ s a, AMap.get? m x = some (.path s a) ∧ QName.ofTypePath s = none) ?_ ?_
    ⟨x, h1, s, a, h2, h3⟩
  · rintro x ⟨s, a, h, _⟩; exact ⟨s, a, h⟩
  · rintro x z ⟨s, a, h, hy⟩ ⟨⟨s', a', h'⟩, hz⟩
    have := h.symm.trans h'.1
    cases this
    rw [h'.2] at hy; cases hy

theorem endsAt_unique {m : AMap QName Ty} {q : QName} {r r' : Option Ty} (h : EndsAt m q r)
    (h' : EndsAt m q r') : r = r' := by
  have hopget : ∀ {q r : QName}, Hop m q r → ∃ s a, AMap.get? m q = some (.path s a) := by
    rintro q r ⟨⟨s, a, h, _⟩, _⟩; exact ⟨s, a, h⟩
  induction h generalizing r' with
  | notTypedef h =>
    cases h' with
    | notTypedef => rfl
    | unnamed h2 => rw [h] at h2; cases h2
    | last h2 => cases h.symm.trans h2.1
    | hop h2 => obtain ⟨s, a, h3⟩ := hopget h2; rw [h] at h3; cases h3
  | unnamed h ht =>
    cases h' with
    | notTypedef h2 => rw [h] at h2; cases h2
    | unnamed h2 => exact h.symm.trans h2
    | last h2 => have := h.symm.trans h2.1; exact absurd (Option.some.inj this) (ht _ _)
    | hop h2 => obtain ⟨s, a, h3⟩ := hopget h2; exact absurd (Option.some.inj (h.symm.trans h3)) (ht _ _)
  | last h ha hr ih =>
    cases h' with
    | notTypedef h2 => rw [h.1] at h2; cases h2
    | unnamed h2 ht => exact absurd (Option.some.inj (h2.symm.trans h.1)) (ht _ _)
    | last h2 => exact h.1.symm.trans h2.1
    | hop h2 hr2 =>
      have := hop_unique ⟨⟨_, _, h⟩, ha⟩ h2
      subst this
      cases ih hr2
  | hop h hr ih =>
    cases h' with
    | notTypedef h2 => obtain ⟨s, a, h3⟩ := hopget h; rw [h2] at h3; cases h3
    | unnamed h2 ht => obtain ⟨s, a, h3⟩ := hopget h; exact absurd (Option.some.inj (h2.symm.trans h3)) (ht _ _)
    | last h2 ha hr2 =>
      have := hop_unique h ⟨⟨_, _, h2⟩, ha⟩
      subst this
      cases ih hr2
    | hop h2 hr2 =>
      have := hop_unique h h2
      subst this
      exact ih hr2

/-- The four ways following typedefs can end. -/
theorem resolve_sound (m : AMap QName Ty) (q : QName) :
    match resolveTypedef m q with
    | .ok r => EndsAt m q r
    | .err e => (∃ x, e = .infinitelyRecursiveTypedef x ∧ LoopsAt m q x) ∨
        (e = .typedefToTypeInAnonymousNamespace ∧ HitsAnonymous m q)
    | .panic => HitsEmptyPath m q
    | .outOfFuel => False := by
  have h := resolveLoop_sound (m := m) (m.length + 1) [] q none (by simp)
  have ht := resolve_terminates m q
  rw [resolveTypedef] at ht ⊢
  revert h ht
  cases resolveLoop m (m.length + 1) [] q none with
  | ok r =>
    intro h _
    rcases h with ⟨h, rfl⟩ | ⟨t, rfl, h⟩ <;> exact h
  | err e => exact fun h _ => h
  | panic => exact fun h _ => h
  | outOfFuel => exact fun _ h => absurd rfl h

/-- **C21**: a type is returned exactly when the chain of typedefs has an end, and it is that end. -/
theorem resolve_ok_iff (m : AMap QName Ty) (q : QName) (r : Option Ty) :
    resolveTypedef m q = .ok r ↔ EndsAt m q r := by
  have h := resolve_sound m q
  revert h
  cases hr : resolveTypedef m q with
  | ok r' =>
    intro h
    exact ⟨(fun e => by cases e; exact h), fun h' => by rw [endsAt_unique h h']⟩
  | err e =>
    intro h
    refine ⟨(fun e => by cases e), fun h' => ?_⟩
    rcases h with ⟨x, _, h⟩ | ⟨_, h⟩
    · exact absurd h (endsAt_no_loop h' x)
    · exact absurd h (endsAt_no_anonymous h')
  | panic => exact fun h => ⟨(fun e => by cases e), fun h' => absurd h (endsAt_no_empty h')⟩
  | outOfFuel => exact fun h => h.elim

/-- A chain which runs into a cycle does not run into anything else. -/
theorem loops_no_stop {m : AMap QName Ty} {q x : QName} (h : LoopsAt m q x) {y : QName}
    (hy : ReflTransGen (Hop m) q y) : ∃ z, Hop m y z := by
  obtain ⟨h1, h2⟩ := h
  rcases ReflTransGen.total_of_right_unique (hop_right_unique m) h1 hy with h3 | h3
  · -- `y` is on the cycle
    have : ReflTransGen (Hop m) y x := by
      induction h3 with
      | refl => exact .refl
      | tail h4 h5 ih =>
        rcases ReflTransGen.cases_head (ih (h1.trans h4)) with rfl | ⟨c, hc, h6⟩
        · obtain ⟨c, hc, h6⟩ := TransGen.head'_iff.1 h2
          exact (hop_unique h5 hc) ▸ h6
        · exact (hop_unique h5 hc) ▸ h6
    rcases ReflTransGen.cases_head this with rfl | ⟨c, hc, _⟩
    · obtain ⟨c, hc, _⟩ := TransGen.head'_iff.1 h2
      exact ⟨c, hc⟩
    · exact ⟨c, hc⟩
  · rcases ReflTransGen.cases_head h3 with rfl | ⟨c, hc, _⟩
    · obtain ⟨c, hc, _⟩ := TransGen.head'_iff.1 h2
      exact ⟨c, hc⟩
    · exact ⟨c, hc⟩

/-- **C21**: an infinitely recursive typedef is reported exactly when the chain of typedefs runs into a
cycle, and the name reported lies on that cycle. -/
theorem resolve_loop_iff (m : AMap QName Ty) (q : QName) :
    ((∃ x, resolveTypedef m q = .err (.infinitelyRecursiveTypedef x)) ↔ ∃ x, LoopsAt m q x) ∧
    ∀ x, resolveTypedef m q = .err (.infinitelyRecursiveTypedef x) → LoopsAt m q x := by
  have h := resolve_sound m q
  have second : ∀ x, resolveTypedef m q = .err (.infinitelyRecursiveTypedef x) → LoopsAt m q x := by
    intro x hx
    rw [hx] at h
    rcases h with ⟨y, h1, h2⟩ | ⟨h1, _⟩
    · cases h1; exact h2
    · cases h1
  refine ⟨⟨fun ⟨x, hx⟩ => ⟨x, second x hx⟩, fun ⟨x, hx⟩ => ?_⟩, second⟩
  revert h
  cases resolveTypedef m q with
  | ok r => exact fun h => absurd hx (endsAt_no_loop h x)
  | err e =>
    rintro (⟨y, rfl, _⟩ | ⟨rfl, z, s, a, r, h1, h2, h3⟩)
    · exact ⟨y, rfl⟩
    · obtain ⟨w, ⟨⟨s', a', h4⟩, h5⟩⟩ := loops_no_stop hx h1
      have := h2.1.symm.trans h4.1
      cases this
      exact absurd (Option.some.inj (h2.2.symm.trans h4.2) ▸ h3) h5
  | panic =>
    rintro ⟨z, s, a, h1, h2, h3⟩
    obtain ⟨w, ⟨⟨s', a', h4⟩, h5⟩⟩ := loops_no_stop hx h1
    have := h2.symm.trans h4.1
    cases this
    rw [h4.2] at h3; cases h3
  | outOfFuel => exact fun h => h.elim

/-- **C21**: the other error is reported exactly when the chain of typedefs runs into a type in an
anonymous namespace; and it panics exactly when the chain runs into an empty path. -/
theorem resolve_other_iff (m : AMap QName Ty) (q : QName) :
    (resolveTypedef m q = .err .typedefToTypeInAnonymousNamespace ↔ HitsAnonymous m q) ∧
    (resolveTypedef m q = .panic ↔ HitsEmptyPath m q) := by
  have h := resolve_sound m q
  have excl : HitsAnonymous m q → HitsEmptyPath m q → False := by
    rintro ⟨x, s, a, r, h1, h2, h3⟩ ⟨y, s', a', h1', h2', h3'⟩
    rcases ReflTransGen.total_of_right_unique (hop_right_unique m) h1 h1' with h4 | h4 <;>
      rcases ReflTransGen.cases_head h4 with rfl | ⟨c, ⟨⟨s'', a'', h5⟩, h6⟩, _⟩
    · have := h2.1.symm.trans h2'
      cases this
      rw [h2.2] at h3'; cases h3'
    · have := h2.1.symm.trans h5.1
      cases this
      exact h6 (Option.some.inj (h2.2.symm.trans h5.2) ▸ h3)
    · have := h2.1.symm.trans h2'
      cases this
      rw [h2.2] at h3'; cases h3'
    · have := h2'.symm.trans h5.1
      cases this
      rw [h5.2] at h3'; cases h3'
  have hl : ∀ x, LoopsAt m q x → ¬ HitsAnonymous m q ∧ ¬ HitsEmptyPath m q := by
    intro x hx
    constructor
    · rintro ⟨z, s, a, r, h1, h2, h3⟩
      obtain ⟨w, ⟨⟨s', a', h4⟩, h5⟩⟩ := loops_no_stop hx h1
      have := h2.1.symm.trans h4.1
      cases this
      exact absurd (Option.some.inj (h2.2.symm.trans h4.2) ▸ h3) h5
    · rintro ⟨z, s, a, h1, h2, h3⟩
      obtain ⟨w, ⟨⟨s', a', h4⟩, h5⟩⟩ := loops_no_stop hx h1
      have := h2.symm.trans h4.1
      cases this
      rw [h4.2] at h3; cases h3
  revert h
  cases resolveTypedef m q with
  | ok r =>
    intro h
    exact ⟨⟨(fun e => by cases e), fun h' => absurd h' (endsAt_no_anonymous h)⟩,
      ⟨(fun e => by cases e), fun h' => absurd h' (endsAt_no_empty h)⟩⟩
  | err e =>
    rintro (⟨y, rfl, h⟩ | ⟨rfl, h⟩)
    · exact ⟨⟨(fun e => by cases e), fun h' => absurd h' (hl _ h).1⟩,
        ⟨(fun e => by cases e), fun h' => absurd h' (hl _ h).2⟩⟩
    · exact ⟨⟨fun _ => h, fun _ => rfl⟩, ⟨(fun e => by cases e), fun h' => (excl h h').elim⟩⟩
  | panic =>
    intro h
    exact ⟨⟨(fun e => by cases e), fun h' => (excl h' h).elim⟩, ⟨fun _ => h, fun _ => rfl⟩⟩
  | outOfFuel => exact fun h => h.elim

/-! ### Examples -/

/-- `typedef A B; typedef B* C; typedef Loop2 Loop1; typedef Loop1 Loop2; typedef Loop1 In;` and a
typedef of something in an anonymous namespace. -/
def exTypedefs : AMap QName Ty :=
  [(⟨[], "B"⟩, .path ["root", "A"] []), (⟨["n"], "C"⟩, .path ["root", "B"] []),
   (⟨[], "P"⟩, .ptr true (.path ["root", "B"] [])), (⟨[], "Q"⟩, .path ["root", "P"] []),
   (⟨[], "Loop1"⟩, .path ["root", "Loop2"] []), (⟨[], "Loop2"⟩, .path ["root", "Loop1"] []),
   (⟨[], "In"⟩, .path ["root", "Loop1"] []),
   (⟨[], "An"⟩, .path ["root", "_bindgen_mod_id_7", "X"] [])]

example : resolveTypedef exTypedefs ⟨[], "A"⟩ = .ok none ∧
    resolveTypedef exTypedefs ⟨["n"], "C"⟩ = .ok (some (.path ["root", "A"] [])) ∧
    resolveTypedef exTypedefs ⟨[], "Q"⟩ = .ok (some (.ptr true (.path ["root", "B"] []))) ∧
    resolveTypedef exTypedefs ⟨[], "In"⟩ = .err (.infinitelyRecursiveTypedef ⟨[], "Loop2"⟩) ∧
    resolveTypedef exTypedefs ⟨[], "An"⟩ = .err .typedefToTypeInAnonymousNamespace := by
  decide +kernel

end Verif
