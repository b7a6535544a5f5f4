import Verif.Passes
import Verif.ApiVecProps
import Verif.Util

/-!
# Following a pass from item to item

Specifications shared by the properties of the passes which call the type converter.
-/

set_option autoImplicit false

namespace Verif

/-- An item with its analyses replaced. -/
def Api.mapAnalysis {T S F T' S' F' : Type} (ft : T → T') (fs : S → S') (ff : F → F') :
    Api T S F → Api T' S' F'
  | .typedef n i o a => .typedef n i o (ft a)
  | .struct n d a => .struct n d (fs a)
  | .function n f a => .function n f (ff a)
  | .concreteType n r d => .concreteType n r d
  | .forwardDeclaration n e => .forwardDeclaration n e
  | .opaqueTypedef n f => .opaqueTypedef n f
  | .stringConstructor n => .stringConstructor n
  | .const n i => .const n i
  | .ctype n t => .ctype n t
  | .rustType n p => .rustType n p
  | .rustFn n d => .rustFn n d
  | .rustSubclassFn n sub d => .rustSubclassFn n sub d
  | .subclass n sup => .subclass n sup
  | .ignoredItem n e c => .ignoredItem n e c
  | .subclassTraitItem n d => .subclassTraitItem n d
  | .externCppType n p o => .externCppType n p o
  | .enum n i => .enum n i

theorem Api.mapAnalysis_name {T S F T' S' F' : Type} (ft : T → T') (fs : S → S') (ff : F → F') (a : Api T S F) :
    (a.mapAnalysis ft fs ff).name = a.name := by
  cases a <;> rfl

/-- A pass over a list of items, one item after the other. -/
inductive Steps {σ T S F T' S' F' : Type}
    (f : σ → Api T S F → σ × PassRun (Except ErrWithCtx (List (Api T' S' F')))) :
    σ → List (Api T S F) → σ → List (Api T' S' F') → Prop
  | nil {s : σ} : Steps f s [] s []
  | cons {s s1 s2 : σ} {a : Api T S F} {l : List (Api T S F)} {r : Except ErrWithCtx (List (Api T' S' F'))}
      {m : List (Api T' S' F')} (h : f s a = (s1, .done r)) (t : Steps f s1 l s2 m) :
      Steps f s (a :: l) s2 (apiOrError a.nameInfo r ++ m)

section
variable {σ T S F T' S' F' : Type}
  {f : σ → Api T S F → σ × PassRun (Except ErrWithCtx (List (Api T' S' F')))}

theorem runPass_done {l : List (Api T S F)} {s s' : σ} {m : List (Api T' S' F')} :
    runPass f s l = (s', .done m) ↔ Steps f s l s' m := by
  induction l generalizing s s' m with
  | nil =>
    constructor
    · intro h; cases h; exact .nil
    · intro h; cases h; rfl
  | cons a l ih =>
    rw [runPass]
    constructor
    · intro h
      cases hf : f s a with
      | mk s1 r =>
        rw [hf] at h
        cases r with
        | panic => cases h
        | diverges => cases h
        | done r =>
          dsimp only at h
          cases hr : runPass f s1 l with
          | mk s2 q =>
            rw [hr] at h
            cases q with
            | panic => cases h
            | diverges => cases h
            | done l' => cases h; exact .cons hf (ih.1 hr)
    · intro h
      cases h with
      | cons h t => rw [h]; dsimp only; rw [ih.2 t]

/-- A pass which does not diverge on the items of a list does not do so on the list. -/
theorem runPass_converges (l : List (Api T S F)) (hs : ∀ a ∈ l, ∀ s, (f s a).2 ≠ .diverges) (s : σ) :
    (runPass f s l).2 ≠ .diverges := by
  induction l generalizing s with
  | nil => intro h; cases h
  | cons a l ih =>
    rw [runPass]
    have ha := hs a (by simp) s
    cases hf : f s a with
    | mk s1 r =>
      rw [hf] at ha
      cases r with
      | panic => intro h; cases h
      | diverges => exact absurd rfl ha
      | done r =>
        dsimp only
        have hi := ih (fun b hb => hs b (by simp [hb])) s1
        cases hr : runPass f s1 l with
        | mk s2 q =>
          rw [hr] at hi
          cases q with
          | panic => intro h; cases h
          | diverges => exact absurd rfl hi
          | done l' => intro h; cases h

end

/-- A list of items turned into another, item by item, while a state goes along. -/
inductive Thread {σ α β : Type} (R : σ → α → σ → β → Prop) : σ → List α → σ → List β → Prop
  | nil {s : σ} : Thread R s [] s []
  | cons {s s1 s2 : σ} {a : α} {b : β} {l : List α} {m : List β} (h : R s a s1 b) (t : Thread R s1 l s2 m) :
      Thread R s (a :: l) s2 (b :: m)

namespace Thread
variable {σ α β : Type} {R : σ → α → σ → β → Prop} {s s' : σ} {l : List α} {m : List β}

theorem all2 (h : Thread R s l s' m) : All2 (fun a b => ∃ s1 s2, R s1 a s2 b) l m := by
  induction h with
  | nil => exact .nil
  | cons h t ih => exact .cons ⟨_, _, h⟩ ih

theorem keeps {P : σ → Prop} (h : Thread R s l s' m) (hP : ∀ s a s' b, R s a s' b → P s → P s') (hs : P s) : P s' := by
  induction h with
  | nil => exact hs
  | cons h t ih => exact ih (hP _ _ _ _ h hs)

theorem monotone {Q : σ → σ → Prop} (h : Thread R s l s' m) (hr : ∀ s, Q s s) (ht : ∀ a b c, Q a b → Q b c → Q a c)
    (hP : ∀ s a s' b, R s a s' b → Q s s') : Q s s' := by
  induction h with
  | nil => exact hr _
  | cons h t ih => exact ht _ _ _ (hP _ _ _ _ h) ih

/-- Each step happens between the first state and the last. -/
theorem between {Q : σ → σ → Prop} (h : Thread R s l s' m) (hr : ∀ s, Q s s) (ht : ∀ a b c, Q a b → Q b c → Q a c)
    (hP : ∀ s a s' b, R s a s' b → Q s s') :
    All2 (fun a b => ∃ s1 s2, R s1 a s2 b ∧ Q s s1 ∧ Q s2 s') l m := by
  induction h with
  | nil => exact .nil
  | cons h t ih =>
    refine .cons ⟨_, _, h, hr _, t.monotone hr ht hP⟩ ?_
    exact ih.mono fun a b _ ⟨s1, s2, h1, h2, h3⟩ => ⟨s1, s2, h1, ht _ _ _ (hP _ _ _ _ h) h2, h3⟩

end Thread

theorem Steps.thread {σ T S F T' S' F' : Type}
    {f : σ → Api T S F → σ × PassRun (Except ErrWithCtx (List (Api T' S' F')))}
    {R : σ → Api T S F → σ → Api T' S' F' → Prop}
    (hR : ∀ s a s' r, f s a = (s', .done r) → ∃ b, apiOrError a.nameInfo r = [b] ∧ R s a s' b)
    {s s' : σ} {l : List (Api T S F)} {m : List (Api T' S' F')} (h : Steps f s l s' m) : Thread R s l s' m := by
  induction h with
  | nil => exact .nil
  | cons h t ih =>
    obtain ⟨b, e, hb⟩ := hR _ _ _ _ h
    rw [e]
    exact .cons hb ih

/-! ### The names of vectors -/

/-- Items with different names stay as they are in a vector. -/
theorem fromIter_apis {T S F : Type} (l : List (Api T S F)) (h : (l.map (·.name)).Nodup) :
    (ApiVec.fromIter l).apis = l := by
  have := extend_fresh_apis ({} : ApiVec T S F) ApiVec.inv_empty l (by simpa [ApiVec.nameList] using h)
  simpa [ApiVec.fromIter] using this

theorem fromIter_inv {T S F : Type} (l : List (Api T S F)) : (ApiVec.fromIter l).Inv :=
  ApiVec.extend_inv ApiVec.inv_empty l

/-- An item whose name is not used by the items added later keeps its place. -/
theorem extend_keeps {T S F : Type} (v : ApiVec T S F) (hv : v.Inv) (l : List (Api T S F)) (n : QName)
    (h : ∀ b ∈ l, b.name ≠ n) : (v.extend l).get? n = v.get? n := by
  rw [apivec_extend_spec v hv]
  have : (l.filter fun a => a.name = n) = [] := by
    rw [List.filter_eq_nil_iff]
    intro b hb
    simpa using h b hb
  rw [this]
  rfl

/-- What is in a vector after adding items: what was there, the new items, and markers. -/
theorem mem_extend {T S F : Type} (v : ApiVec T S F) (l : List (Api T S F)) {x : Api T S F}
    (h : x ∈ (v.extend l).apis) : x ∈ v.apis ∨ x ∈ l ∨ x.isIgnored = true := by
  induction l generalizing v with
  | nil => exact .inl h
  | cons a l ih =>
    rcases ih (v.push a) h with h | h | h
    · unfold ApiVec.push at h
      split at h
      · split at h
        · exact .inl h
        · unfold ApiVec.pushMarker at h
          split at h
          · exact .inl (List.mem_filter.1 h).1
          · rcases List.mem_append.1 h with h | h
            · exact .inl (List.mem_filter.1 h).1
            · rw [List.mem_singleton] at h; subst h; exact .inr (.inr rfl)
      · rcases List.mem_append.1 h with h | h
        · exact .inl h
        · rw [List.mem_singleton] at h; subst h; exact .inr (.inl (by simp))
    · exact .inr (.inl (by simp [h]))
    · exact .inr (.inr h)

/-- The marker for items of the same name. -/
def Api.IsDup {T S F : Type} (x : Api T S F) : Prop := x = ApiVec.duplicateMarker x.name

theorem Api.IsDup.ignored {T S F : Type} {x : Api T S F} (h : x.IsDup) : x.isIgnored = true := by
  rw [h]; rfl

theorem Api.IsDup.map {T S F T' S' F' : Type} {x : Api T S F} (h : x.IsDup) (ft : T → T') (fs : S → S') (ff : F → F') :
    (x.mapAnalysis ft fs ff).IsDup := by
  rw [h]; rfl

/-- An instantiation, the only kind of item the converter adds. -/
def IsInstantiation {T S F : Type} (a : Api T S F) : Prop :=
  ∃ id rs cpp, a = .concreteType ⟨⟨[], id⟩, none⟩ (some rs) cpp

/-- Instantiations and markers get no analysis. -/
theorem addAnalyses_ok {T S F : Type} (ft : Unit → T) (fs : Unit → S) (ff : Unit → F) (l : List NullApi)
    (h : ∀ x ∈ l, IsInstantiation x ∨ x.IsDup) :
    addAnalyses l = .done (l.map (Api.mapAnalysis ft fs ff)) := by
  have : l.mapM (addAnalysis (T := T) (S := S) (F := F)) = some (l.map (Api.mapAnalysis ft fs ff)) := by
    induction l with
    | nil => rfl
    | cons a l ih =>
      rw [List.mapM_cons, ih fun x hx => h x (by simp [hx])]
      have ha : addAnalysis a = some (a.mapAnalysis ft fs ff) := by
        rcases h a (by simp) with ⟨id, rs, cpp, rfl⟩ | hi
        · rfl
        · have hi := hi.ignored
          cases a <;> first | rfl | cases hi
      rw [ha]
      rfl
  rw [addAnalyses, this]

end Verif
