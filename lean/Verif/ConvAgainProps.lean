import Verif.ConvPanicProps

/-!
# Converting a type twice
-/

set_option autoImplicit false

namespace Verif

/-- The same outcome, except that what was declared the first time need not be declared again. -/
def SameOutcome {α : Type} : CRes (Annotated α) → CRes (Annotated α) → Prop
  | .ok a, r => ∃ a', r = .ok a' ∧ a'.ty = a.ty ∧ a'.deps = a.deps ∧ a'.kind = a.kind
  | .err e, r => r = .err e
  | .panic, _ => True
  | .outOfFuel, r => r = .outOfFuel

/-- A second run, on a later table, leaves the table alone and has the same outcome. -/
def Again {α : Type} (first second : Concretes × CRes (Annotated α)) (st : Concretes) : Prop :=
  first.2 ≠ .panic → second.1 = st ∧ SameOutcome first.2 second.2

theorem Again.thenDo {α β : Type} {r : Concretes × CRes (Annotated α)} {r' : Concretes × CRes (Annotated α)}
    {f f' : Concretes → Annotated α → Concretes × CRes (Annotated β)} {st' : Concretes}
    (hr : Again r r' st') (hst : Grows (Verif.thenDo r f).1 st') 
    (h : ∀ s a a', r = (s, .ok a) → Grows (f s a).1 st' → a'.ty = a.ty → a'.deps = a.deps → a'.kind = a.kind →
      Again (f s a) (f' st' a') st') : Again (Verif.thenDo r f) (Verif.thenDo r' f') st' := by
  obtain ⟨s, r⟩ := r
  obtain ⟨s', r'⟩ := r'
  intro hne
  cases r with
  | panic => exact absurd rfl hne
  | err e =>
    obtain ⟨h1, h2⟩ := hr (fun h => by cases h)
    dsimp only at h1
    subst h1
    cases (show r' = .err e from h2)
    exact ⟨rfl, rfl⟩
  | outOfFuel =>
    obtain ⟨h1, h2⟩ := hr (fun h => by cases h)
    dsimp only at h1
    subst h1
    cases (show r' = .outOfFuel from h2)
    exact ⟨rfl, rfl⟩
  | ok a =>
    obtain ⟨h1, a', h2, ht, hd, hk⟩ := hr (fun h => by cases h)
    dsimp only at h1 h2
    subst h1 h2
    exact h s a a' rfl hst ht hd hk hne

/-- A step which does not look at the table. -/
theorem again_pure {α β : Type} {r : CRes α} {f : Concretes → α → Concretes × CRes (Annotated β)} {st st' : Concretes}
    (h : ∀ a, r = .ok a → Again (f st a) (f st' a) st') : Again (thenDo (st, r) f) (thenDo (st', r) f) st' := by
  cases r with
  | ok a => exact h a rfl
  | err e => exact fun _ => ⟨rfl, rfl⟩
  | panic => exact fun h => absurd rfl h
  | outOfFuel => exact fun _ => ⟨rfl, rfl⟩

theorem grows_templated {names : CppNameMap} {st : Concretes} {t : Ty} {st' : Concretes}
    (hst : Grows (templatedTypename names st t).1 st') {r : QName × Option NullApi} {s : Concretes}
    (h : templatedTypename names st t = (s, .ok r)) : templatedTypename names st' t = (st', .ok (r.1, none)) := by
  obtain ⟨cpp, hcpp, hg⟩ := templated_ok h
  rw [h] at hst
  have hg' := hst.get? hg
  rw [templatedTypename, hcpp]
  dsimp only
  rw [hg']

theorem convertArgs_again {f : Concretes → Ty → Concretes × CRes (Annotated Ty)}
    (hfg : ∀ s t, Grows s (f s t).1)
    (hf : ∀ st t st', Grows (f st t).1 st' → Again (f st t) (f st' t) st') : ∀ (l : List Ty) (st st' : Concretes),
      Grows (convertArgs f st l).1 st' → Again (convertArgs f st l) (convertArgs f st' l) st'
  | [], _, _, _ => fun _ => ⟨rfl, _, rfl, rfl, rfl, rfl⟩
  | t :: r, st, st', hst => by
    rw [convertArgs] at hst ⊢
    rw [convertArgs]
    have hfst : Grows (f st t).1 st' := by
      refine Grows.trans ?_ hst
      have hg : ∀ (x : Concretes × CRes (Annotated Ty)) (g : Concretes → Annotated Ty → Concretes × CRes (Annotated (List Ty))),
          (∀ s a, Grows s (g s a).1) → Grows x.1 (thenDo x g).1 := fun x g hg => grows_thenDo .refl hg
      exact hg _ _ fun s _ => grows_thenDo (convertArgs_grows hfg r s) fun _ _ => .refl
    refine Again.thenDo (hf st t st' hfst) hst ?_
    intro s a a' hr hst ht hd hk
    have hst2 : Grows (convertArgs f s r).1 st' := by
      refine Grows.trans ?_ hst
      exact grows_thenDo (st := (convertArgs f s r).1) .refl fun _ _ => .refl
    refine Again.thenDo (convertArgs_again hfg hf r s st' hst2) hst ?_
    intro s b b' _ _ ht' hd' _ _
    exact ⟨rfl, _, rfl, by simp [ht, ht'], by simp [hd, hd'], rfl⟩

theorem finishPath_again {env : ConvEnv} {ctx : ConvCtx} {a a' : Annotated Ty} (ht : a'.ty = a.ty)
    (hd : a'.deps = a.deps) (hk : a'.kind = a.kind) {st st' : Concretes} :
    Again (st, finishPath env ctx a) (st', finishPath env ctx a') st' := by
  intro hne
  refine ⟨rfl, ?_⟩
  dsimp only at hne ⊢
  unfold finishPath at hne ⊢
  rw [ht]
  split
  · split
    · trivial
    · split
      · rfl
      · split
        · exact ⟨_, rfl, rfl, hd, rfl⟩
        · exact ⟨_, rfl, ht, hd, hk⟩
  · exact ⟨_, rfl, ht, hd, hk⟩

theorem convertPlainPath_again {env : ConvEnv} {ns : List String} {f : Concretes → Ty → Concretes × CRes (Annotated Ty)}
    (hfg : ∀ s t, Grows s (f s t).1)
    (hf : ∀ st t st', Grows (f st t).1 st' → Again (f st t) (f st' t) st') {ctx : ConvCtx} {st st' : Concretes}
    {segs : List String} {args : List Ty} (hst : Grows (convertPlainPath f env ns ctx st segs args).1 st') :
    Again (convertPlainPath f env ns ctx st segs args) (convertPlainPath f env ns ctx st' segs args) st' := by
  rw [convertPlainPath] at hst ⊢
  rw [convertPlainPath]
  refine again_pure fun segs' h1 => ?_
  rw [h1, thenDo] at hst
  cases hq : QName.ofTypePath segs' with
  | none => exact fun h => absurd rfl h
  | some q =>
    rw [hq] at hst
    dsimp only at hst ⊢
    refine again_pure fun u h2 => ?_
    rw [h2, thenDo] at hst
    refine again_pure fun r h3 => ?_
    rw [h3, thenDo] at hst
    cases r with
    | done a => exact fun _ => ⟨rfl, _, rfl, rfl, rfl, rfl⟩
    | path s a tn deps =>
      dsimp only at hst ⊢
      rw [convertGeneric.eq_def] at hst ⊢
      rw [convertGeneric.eq_def]
      cases a with
      | nil => exact fun _ => ⟨rfl, _, rfl, rfl, rfl, rfl⟩
      | cons x xs =>
        dsimp only at hst ⊢
        split at hst
        · rename_i hb
          split at hst
          · rename_i hp
            rw [if_pos hp, if_pos hp]
            exact fun _ => ⟨rfl, rfl⟩
          · rename_i hp
            rw [if_neg hp, if_neg hp]
            cases hqn : QName.ofTypePath (substitutePath tn s) with
            | none => exact fun h => absurd rfl h
            | some qn =>
              rw [hqn] at hst
              dsimp only at hst ⊢
              split at hst
              · rename_i hi
                rw [if_pos hi, if_pos hi]
                exact fun _ => ⟨rfl, rfl⟩
              · rename_i hi
                rw [if_neg hi, if_neg hi]
                have hst2 : Grows (templatedTypename env.names st (.path (substitutePath tn s) (x :: xs))).1 st' :=
                  Grows.trans (grows_thenDo (st := (templatedTypename env.names st _).1) .refl fun _ _ => .refl) hst
                cases ht : templatedTypename env.names st (.path (substitutePath tn s) (x :: xs)) with
                | mk s1 r =>
                  cases r with
                  | ok r =>
                    rw [grows_templated hst2 ht]
                    exact fun _ => ⟨rfl, _, rfl, rfl, rfl, rfl⟩
                  | panic => exact fun h => absurd rfl h
                  | outOfFuel => exact absurd (congrArg (·.2) ht) (templated_fuel _ _ _)
                  | err e =>
                    intro _
                    rw [templatedTypename] at ht ⊢
                    split at ht
                    · rename_i hc
                      cases ht
                      exact ⟨rfl, rfl⟩
                    · cases ht
                    · split at ht
                      · cases ht
                      · dsimp only at ht
                        split at ht <;> cases ht
        · rename_i b hb
          have hne : ∀ (k : CxxGenericType), cxxGenericBehavior tn = k → k ≠ .not := fun k hk e => hb (hk.trans e)
          · have hst2 : Grows (convertArgs f st (x :: xs)).1 st' := by
              refine Grows.trans ?_ hst
              refine grows_thenDo (st := (convertArgs f st (x :: xs)).1) .refl fun _ _ => ?_
              split <;> exact .refl
            refine Again.thenDo (convertArgs_again hfg hf (x :: xs) st st' hst2) hst ?_
            intro s1 a a' _ _ ht hd hk
            rw [ht, hd]
            intro hne'
            split
            · exact ⟨rfl, _, rfl, rfl, rfl, rfl⟩
            · exact ⟨rfl, rfl⟩
            · rename_i hp
              rw [hp] at hne'
              exact absurd rfl hne'
            · exact ⟨rfl, rfl⟩

/-- **C22 (asking again)**: a type which is converted again later, in the same place and after any number of other
conversions, becomes the same type, with the same dependencies, or is rejected for the same reason; and nothing new is
registered. -/
theorem convert_again (env : ConvEnv) (ns : List String) : ∀ (n : Nat) (ctx : ConvCtx) (st : Concretes) (ty : Ty)
    (st' : Concretes), Grows (convertType env ns n ctx st ty).1 st' →
      Again (convertType env ns n ctx st ty) (convertType env ns n ctx st' ty) st'
  | 0, _, _, _, _, _ => fun _ => ⟨rfl, rfl⟩
  | n + 1, ctx, st, ty, st', hst => by
    have ih := convert_again env ns n
    have hg := convertType_grows env ns n
    rw [convertType.eq_def] at hst ⊢
    rw [convertType.eq_def]
    dsimp only at hst ⊢
    have inner : ∀ (c : ConvCtx) (e : Ty) (g : Concretes → Annotated Ty → Concretes × CRes (Annotated Ty)),
        (∀ s a, Grows s (g s a).1) → Grows (thenDo (convertType env ns n c st e) g).1 st' →
        (∀ s a a', Grows (g s a).1 st' → a'.ty = a.ty → a'.deps = a.deps → a'.kind = a.kind → Again (g s a) (g st' a') st') →
        Again (thenDo (convertType env ns n c st e) g) (thenDo (convertType env ns n c st' e) g) st' := by
      intro c e g hgg hst h
      refine Again.thenDo (ih c st e st' (Grows.trans (grows_thenDo .refl hgg) hst)) hst ?_
      intro s a a' _ hgr ht hd hk
      exact h s a a' hgr ht hd hk
    cases ty with
    | path segs args =>
      dsimp only at hst ⊢
      cases h1 : unwrapMarker "__bindgen_marker_UnusedTemplateParam" segs args with
      | some t => rw [h1] at hst; exact ih ctx st t st' hst
      | none =>
        rw [h1] at hst
        dsimp only at hst ⊢
        cases h2 : unwrapMarker "__bindgen_marker_Opaque" segs args with
        | some t => rw [h2] at hst; exact ih ctx st t st' hst
        | none =>
          rw [h2] at hst
          dsimp only at hst ⊢
          cases h3 : unwrapReference segs args false with
          | some p =>
            obtain ⟨mu, e⟩ := p
            rw [h3] at hst
            dsimp only at hst ⊢
            refine inner _ e _ (fun _ _ => .refl) hst fun s a a' _ ht hd hk _ => ⟨rfl, _, rfl, ?_, hd, rfl⟩
            dsimp only
            rw [ht]
          | none =>
            rw [h3] at hst
            dsimp only at hst ⊢
            cases h4 : unwrapReference segs args true with
            | some p =>
              obtain ⟨mu, e⟩ := p
              rw [h4] at hst
              dsimp only at hst ⊢
              refine again_pure fun u hu => ?_
              rw [hu, thenDo] at hst
              refine inner _ e _ (fun _ _ => .refl) hst fun s a a' _ ht hd hk _ => ⟨rfl, _, rfl, ?_, hd, rfl⟩
              dsimp only
              rw [ht]
            | none =>
              rw [h4] at hst
              dsimp only at hst ⊢
              refine Again.thenDo (convertPlainPath_again (hg _) (fun st t st' h => ih _ st t st' h)
                (Grows.trans (grows_thenDo .refl fun _ _ => .refl) hst)) hst ?_
              intro s a a' _ _ ht hd hk
              exact finishPath_again ht hd hk
    | ref mu lt e =>
      refine inner _ e _ (fun _ _ => .refl) hst fun s a a' _ ht hd hk _ => ⟨rfl, _, rfl, ?_, hd, rfl⟩
      dsimp only
      rw [ht]
    | array e k =>
      refine inner _ e _ (fun _ _ => .refl) hst fun s a a' _ ht hd hk _ => ⟨rfl, _, rfl, ?_, hd, rfl⟩
      dsimp only
      rw [ht]
    | ptr mu e =>
      dsimp only at hst ⊢
      refine again_pure fun u hu => ?_
      rw [hu, thenDo] at hst
      refine inner _ e _ (fun _ _ => .refl) hst fun s a a' _ ht hd hk _ => ⟨rfl, _, rfl, ?_, hd, rfl⟩
      dsimp only
      rw [ht]
    | other s => exact fun _ => ⟨rfl, rfl⟩

end Verif
