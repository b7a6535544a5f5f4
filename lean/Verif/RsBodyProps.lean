import Verif.RsBody
import Mathlib.Tactic.Push

/-!
# What is put in `unsafe` blocks
-/

set_option autoImplicit false

namespace Verif

section
variable {α : Type}

/-- The statements of a piece, each with whether it is in an `unsafe` block. -/
def Frag.tagged : Frag α → List (Bool × α)
  | .plain x => [(false, x)]
  | .block l => l.map fun x => (true, x)

/-- What a statement is to become outside of `unsafe` code: whether it is to be in a block, and its text. -/
def MaybeUnsafe.wantedSafe : MaybeUnsafe α → Bool × α
  | .normal x => (false, x)
  | .needsUnsafe x => (true, x)
  | .binary x _ => (false, x)

/-- No block is empty, and no two blocks are next to each other. -/
inductive Tidy : List (Frag α) → Prop
  | nil : Tidy []
  | plain {x : α} {l : List (Frag α)} : Tidy l → Tidy (.plain x :: l)
  | last {x : α} {xs : List α} : Tidy [.block (x :: xs)]
  | block {x : α} {xs : List α} {y : α} {l : List (Frag α)} :
    Tidy (.plain y :: l) → Tidy (.block (x :: xs) :: .plain y :: l)

theorem Tidy.snoc_plain {l : List (Frag α)} (h : Tidy l) (y : α) : Tidy (l ++ [.plain y]) := by
  induction h with
  | nil => exact .plain .nil
  | plain _ ih => exact .plain ih
  | last => exact .block (.plain .nil)
  | block _ ih => exact .block ih

/-- A list of pieces which does not end in a block. -/
def EndsPlain (l : List (Frag α)) : Prop := ∀ xs, l.getLast? ≠ some (.block xs)

theorem Tidy.snoc_block {l : List (Frag α)} (h : Tidy l) (he : EndsPlain l) (x : α) (xs : List α) :
    Tidy (l ++ [.block (x :: xs)]) := by
  induction h with
  | nil => exact .last
  | @plain y l h ih =>
    refine .plain (ih fun xs hx => he xs ?_)
    rw [List.getLast?_cons, hx]; rfl
  | last => exact absurd rfl (he _)
  | @block z zs y l h ih =>
    refine .block (ih fun xs hx => he xs ?_)
    rw [List.getLast?_cons_cons]; exact hx

/-- The statements seen so far, as they stand in a state. -/
structure TokInv (items : List (MaybeUnsafe α)) (s : TokState α) : Prop where
  tidy : Tidy s.out
  ends : EndsPlain s.out
  pending : s.unsafeList ≠ some []
  all : s.out.flatMap Frag.tagged ++ (s.unsafeList.getD []).map (fun x => (true, x)) = items.map MaybeUnsafe.wantedSafe

theorem flush_inv {items : List (MaybeUnsafe α)} {s : TokState α} (h : TokInv items s) :
    Tidy s.flush.out ∧ s.flush.unsafeList = none ∧ s.flush.out.flatMap Frag.tagged = items.map MaybeUnsafe.wantedSafe := by
  obtain ⟨u, out⟩ := s
  have := h.all
  cases u with
  | none => exact ⟨h.tidy, rfl, by simpa [TokState.flush] using this⟩
  | some l =>
    cases l with
    | nil => exact absurd rfl h.pending
    | cons x xs =>
      refine ⟨h.tidy.snoc_block h.ends x xs, rfl, ?_⟩
      rw [← this]
      simp [TokState.flush, Frag.tagged]

theorem step_inv {items : List (MaybeUnsafe α)} {s : TokState α} (h : TokInv items s) (i : MaybeUnsafe α) :
    TokInv (items ++ [i]) (s.step i) := by
  have hf := flush_inv h
  have hplain : ∀ x, i.wantedSafe = (false, x) → TokInv (items ++ [i]) ⟨s.flush.unsafeList, s.flush.out ++ [.plain x]⟩ := by
    intro x hx
    refine ⟨hf.1.snoc_plain x, fun xs => by simp, by rw [hf.2.1]; simp, ?_⟩
    simp [hf.2.1, hf.2.2, Frag.tagged, hx]
  cases i with
  | normal x => exact hplain x rfl
  | binary x y => exact hplain x rfl
  | needsUnsafe x =>
    refine ⟨h.tidy, h.ends, by simp [TokState.step], ?_⟩
    have := h.all
    simp only [TokState.step, Option.getD_some, List.map_append, List.map_cons, List.map_nil]
    rw [← List.append_assoc, this]
    rfl

/-- **C29**: where code is not `unsafe`, each statement is put out once, in order, in an `unsafe` block exactly if it
needs one; no block is empty and what could be in one block is not in two. -/
theorem safe_context (items : List (MaybeUnsafe α)) :
    (maybeUnsafesToTokens items false).flatMap Frag.tagged = items.map MaybeUnsafe.wantedSafe ∧
      Tidy (maybeUnsafesToTokens items false) := by
  suffices H : ∀ (items pre : List (MaybeUnsafe α)) (s : TokState α), TokInv pre s →
      TokInv (pre ++ items) (items.foldl TokState.step s) by
    have := flush_inv (H items [] {} ⟨.nil, fun _ => by simp, by simp, rfl⟩)
    exact ⟨this.2.2, this.1⟩
  intro items
  induction items with
  | nil => intro pre s h; simpa using h
  | cons i items ih =>
    intro pre s h
    rw [List.foldl_cons, show pre ++ i :: items = (pre ++ [i]) ++ items by simp]
    exact ih _ _ (step_inv h i)

/-- There is only one way to put statements in blocks which is like that. -/
theorem tidy_unique {l m : List (Frag α)} (hl : Tidy l) (hm : Tidy m) (h : l.flatMap Frag.tagged = m.flatMap Frag.tagged) :
    l = m := by
  suffices H : ∀ (l m : List (Frag α)), Tidy l → Tidy m → l.flatMap Frag.tagged = m.flatMap Frag.tagged → l = m from
    H l m hl hm h
  clear hl hm h l m
  have hhead : ∀ (x : α) (l : List (Frag α)), (Frag.plain x :: l).flatMap Frag.tagged = (false, x) :: l.flatMap Frag.tagged :=
    fun x l => rfl
  have hblock : ∀ (xs : List α) (l : List (Frag α)), (Frag.block xs :: l).flatMap Frag.tagged =
      xs.map (fun x => (true, x)) ++ l.flatMap Frag.tagged := fun x l => rfl
  -- A run of statements in a block, followed by nothing or by one which is in none, is determined.
  have hrun : ∀ (xs ys : List α) (r r' : List (Bool × α)), (∀ a, r.head? ≠ some (true, a)) → (∀ a, r'.head? ≠ some (true, a)) →
      xs.map (fun x => (true, x)) ++ r = ys.map (fun x => (true, x)) ++ r' → xs = ys ∧ r = r' := by
    intro xs
    induction xs with
    | nil =>
      intro ys r r' hr _ h
      cases ys with
      | nil => exact ⟨rfl, h⟩
      | cons y ys => exact absurd (by rw [show r = _ from h]; rfl) (hr y)
    | cons x xs ih =>
      intro ys r r' hr hr' h
      cases ys with
      | nil => exact absurd (by rw [← show _ = r' from h]; rfl) (hr' x)
      | cons y ys =>
        simp only [List.map_cons, List.cons_append, List.cons.injEq, Prod.mk.injEq, true_and] at h
        obtain ⟨h1, h2⟩ := ih ys r r' hr hr' h.2
        exact ⟨by rw [h.1, h1], h2⟩
  intro l
  induction l with
  | nil =>
    intro m _ hm h
    cases hm with
    | nil => rfl
    | plain _ => rw [hhead] at h; cases h
    | last => rw [hblock] at h; cases h
    | block _ => rw [hblock] at h; cases h
  | cons f l ih =>
    intro m hl hm h
    have hrest : ∀ {f : Frag α} {l : List (Frag α)}, Tidy (f :: l) → Tidy l := by
      intro f l h
      cases h with
      | plain h => exact h
      | last => exact .nil
      | block h => exact h
    have hnext : ∀ {xs : List α} {l : List (Frag α)}, Tidy (.block xs :: l) → xs ≠ [] ∧
        ∀ a, (l.flatMap Frag.tagged).head? ≠ some (true, a) := by
      intro xs l h
      cases h with
      | last => exact ⟨by simp, fun a => by simp⟩
      | block h => exact ⟨by simp, fun a => by simp [Frag.tagged]⟩
    cases f with
    | plain x =>
      rw [hhead] at h
      cases m with
      | nil => cases h
      | cons g m =>
        cases g with
        | plain y =>
          rw [hhead] at h
          injection h with h1 h2
          injection h1 with _ h1
          rw [h1, ih m (hrest hl) (hrest hm) h2]
        | block ys =>
          rw [hblock] at h
          obtain ⟨hne, _⟩ := hnext hm
          cases ys with
          | nil => exact absurd rfl hne
          | cons y ys => injection h with h1 h2; injection h1 with h1; cases h1
    | block xs =>
      rw [hblock] at h
      obtain ⟨hne, hx⟩ := hnext hl
      cases m with
      | nil =>
        cases xs with
        | nil => exact absurd rfl hne
        | cons x xs => cases h
      | cons g m =>
        cases g with
        | plain y =>
          rw [hhead] at h
          cases xs with
          | nil => exact absurd rfl hne
          | cons x xs => injection h with h1 h2; injection h1 with h1; cases h1
        | block ys =>
          rw [hblock] at h
          obtain ⟨h1, h2⟩ := hrun xs ys _ _ hx (hnext hm).2 h
          rw [h1, ih m (hrest hl) (hrest hm) h2]

/-- **C29**: where code is `unsafe` already, each statement is put out once, in order, and no block is opened. -/
theorem unsafe_context (items : List (MaybeUnsafe α)) :
    (maybeUnsafesToTokens items true).flatMap Frag.tagged = items.map (fun i => (false, match i with
      | .normal x => x
      | .needsUnsafe x => x
      | .binary _ x => x)) ∧
      ∀ f ∈ maybeUnsafesToTokens items true, ∃ x, f = .plain x := by
  constructor
  · rw [maybeUnsafesToTokens, if_pos rfl]
    induction items with
    | nil => rfl
    | cons i l ih =>
      rw [List.map_cons, List.flatMap_cons, ih]
      cases i <;> rfl
  · intro f hf
    rw [maybeUnsafesToTokens, if_pos rfl] at hf
    obtain ⟨i, _, rfl⟩ := List.mem_map.1 hf
    exact ⟨_, rfl⟩

end

/-- **C29**: no block is opened when none is needed. -/
theorem no_needless_block {α : Type} (items : List (MaybeUnsafe α)) (unsafeContext : Bool)
    (h : unsafeContext = true ∨ ∀ i ∈ items, ∀ x, i ≠ .needsUnsafe x) :
    ∀ f ∈ maybeUnsafesToTokens items unsafeContext, ∃ x, f = .plain x := by
  cases unsafeContext with
  | true => exact (unsafe_context items).2
  | false =>
    obtain ⟨h1, h2⟩ := safe_context items
    rcases h with h | h
    · cases h
    intro f hf
    cases f with
    | plain x => exact ⟨x, rfl⟩
    | block l =>
      exfalso
      cases l with
      | nil =>
        revert hf
        generalize maybeUnsafesToTokens items false = out at h2
        induction h2 with
        | nil => simp
        | plain _ ih => simpa using ih
        | last => simp
        | block _ ih => simpa using ih
      | cons x l =>
        have : (true, x) ∈ (maybeUnsafesToTokens items false).flatMap Frag.tagged :=
          List.mem_flatMap.2 ⟨_, hf, by simp [Frag.tagged]⟩
        rw [h1] at this
        obtain ⟨i, hi, he⟩ := List.mem_map.1 this
        cases i with
        | needsUnsafe y => exact h _ hi y rfl
        | normal y => cases he
        | binary y z => cases he

/-- Statements of all three sorts, outside and inside of `unsafe` code. -/
example : maybeUnsafesToTokens [.needsUnsafe 1, .needsUnsafe 2, .normal 3, .binary 4 5, .needsUnsafe 6] false =
      [.block [1, 2], .plain 3, .plain 4, .block [6]] ∧
    maybeUnsafesToTokens [.needsUnsafe 1, .needsUnsafe 2, .normal 3, .binary 4 5, .needsUnsafe 6] true =
      [.plain 1, .plain 2, .plain 3, .plain 5, .plain 6] := by
  decide

end Verif
