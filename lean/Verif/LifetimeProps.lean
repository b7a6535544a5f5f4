import Verif.RsTypeProps
import Verif.FnRefProps

/-!
# The lifetimes of the functions which are generated

Where the lifetime `'a` is written, where it is not, and what it is attached to.
-/

set_option autoImplicit false

namespace Verif

/-! ## What needs a lifetime -/

/-- Whether the lifetime `'a` is written for what is borrowed: for a reference, for one which is pinned, or for what an
`impl` type has. -/
def RTy.carries : RTy → Bool
  | .plain (.ref _ l _) => l = some "'a"
  | .plain (.path segs (.ref _ l _ :: _)) => segs.getLast? = some "Pin" && l = some "'a"
  | .impl _ l => "'a" ∈ l
  | _ => false

/-- Whether there is a place for a lifetime. -/
def RTy.canCarry : RTy → Bool
  | .plain (.ref ..) => true
  | .plain (.path [s, "pin", "Pin"] (.ref .. :: _)) => s = "core" || s = "std"
  | .impl .. => true
  | _ => false

/-- Whether references are wrapped, in the result or a parameter. -/
def UsesWrappers (ds : List ArgumentAnalysis) (rc : Option TypeConversionPolicy) : Prop :=
  (∃ c, rc = some c ∧ c.rustConversion = .fromPointerToReferenceWrapper) ∨
    ∃ pd ∈ ds, pd.conversion.rustConversion = .fromReferenceWrapperToPointer

/-- The reasons to write a lifetime, as the comment in lifetime.rs has them. -/
inductive NeedsLifetime (ds : List ArgumentAnalysis) (ps : List SigParam) (ret : Option RTy) (nonPod : List QName)
    (rc : Option TypeConversionPolicy) : Prop
  | mutableReceiver {pd : ArgumentAnalysis} {q : QName} (h : pd ∈ ds) (hs : pd.selfType = some (q, .mutable))
      (hd : pd.isPlacementReturnDestination = false)
  | podOutOfNonPod {p : SigParam} {m m' : Bool} {l l' : Option String} {segs segs' : List String} {args args' : List Ty}
      {q q' : QName} (h : p ∈ ps) (hr : p.receiver = false) (ht : p.ty = .plain (.ref m l (.path segs args)))
      (hq : QName.ofTypePath segs = some q) (hn : q ∈ nonPod)
      (hret : ret = some (.plain (.ref m' l' (.path segs' args')))) (hq' : QName.ofTypePath segs' = some q')
      (hn' : q' ∉ nonPod)
  | newOutOfReference {b : ImplBound} {l : List String} {pd : ArgumentAnalysis} (hret : ret = some (.impl b l)) (h : pd ∈ ds)
      (hp : pd.hasLifetime = true ∨ pd.conversion.rustConversion = .fromValueParamToPtr)
  | wrappers (h : UsesWrappers ds rc)

theorem hasNonPodRef_true {np : List QName} {ps : List SigParam} (h : hasNonPodRef np ps = some true) :
    ∃ p ∈ ps, p.receiver = false ∧ ∃ m l segs args q, p.ty = .plain (.ref m l (.path segs args)) ∧
      QName.ofTypePath segs = some q ∧ q ∈ np := by
  induction ps with
  | nil => cases h
  | cons p ps ih =>
    rw [hasNonPodRef] at h
    split at h
    · rename_i hp
      refine ⟨p, List.mem_cons_self, ?_⟩
      rw [isNonPodRef] at hp
      split at hp
      · cases hp
      · rename_i hr
        refine ⟨by simpa using hr, ?_⟩
        split at hp
        · rename_i m l segs args ht
          obtain ⟨q, hq, hn⟩ := Option.map_eq_some_iff.1 hp
          exact ⟨_, _, _, _, q, ht, hq, of_decide_eq_true hn⟩
        · cases hp
    · obtain ⟨p', hp', r⟩ := ih h
      exact ⟨p', List.mem_cons_of_mem _ hp', r⟩
    · cases h

theorem hasNonPodRef_false {np : List QName} {ps : List SigParam} (h : hasNonPodRef np ps = some false)
    {p : SigParam} (hp : p ∈ ps) (hr : p.receiver = false) {m : Bool} {l : Option String} {segs : List String}
    {args : List Ty} {q : QName} (ht : p.ty = .plain (.ref m l (.path segs args))) (hq : QName.ofTypePath segs = some q) :
    q ∉ np := by
  induction ps with
  | nil => cases hp
  | cons p' ps ih =>
    rw [hasNonPodRef] at h
    split at h
    · cases h
    · rename_i hp'
      rcases List.mem_cons.1 hp with rfl | hp
      · rw [isNonPodRef, hr, ht] at hp'
        simp only [Bool.false_eq_true, if_false, hq, Option.map_some, Option.some.injEq, decide_eq_false_iff_not] at hp'
        exact hp'
      · exact ih h hp
    · cases h

theorem returnsPodRef_iff {np : List QName} {ret : Option RTy} {b : Bool} (h : returnsPodRef np ret = some b) :
    b = true ↔ ∃ m l segs args q, ret = some (.plain (.ref m l (.path segs args))) ∧
      QName.ofTypePath segs = some q ∧ q ∉ np := by
  rw [returnsPodRef.eq_def] at h
  split at h
  · rename_i m l segs args
    obtain ⟨q, hq, hb⟩ := Option.map_eq_some_iff.1 h
    rw [← hb, decide_eq_true_iff]
    constructor
    · exact fun hn => ⟨m, l, segs, args, q, rfl, hq, hn⟩
    · rintro ⟨m', l', segs', args', q', he, hq', hn⟩
      cases he
      rw [hq] at hq'
      cases hq'
      exact hn
  · rename_i hne
    cases h
    constructor
    · intro h; cases h
    · rintro ⟨m, l, segs, args, q, he, _⟩
      exact absurd he (hne m l segs args)

theorem usesWrappers_iff {ds : List ArgumentAnalysis} {rc : Option TypeConversionPolicy} :
    (returnsCppref rc || anyParamIsCppref ds) = true ↔ UsesWrappers ds rc := by
  rw [Bool.or_eq_true, anyParamIsCppref, List.any_eq_true, UsesWrappers]
  refine or_congr ?_ ?_
  · cases rc with
    | none => exact ⟨fun h => by (cases h), fun ⟨_, h, _⟩ => by cases h⟩
    | some c =>
      rw [returnsCppref, decide_eq_true_iff]
      exact ⟨fun h => ⟨c, rfl, h⟩, fun ⟨_, h, h'⟩ => by cases h; exact h'⟩
  · exact ⟨fun ⟨p, h, h'⟩ => ⟨p, h, of_decide_eq_true h'⟩, fun ⟨p, h, h'⟩ => ⟨p, h, decide_eq_true h'⟩⟩

theorem hasMutableReceiver_iff {ds : List ArgumentAnalysis} : hasMutableReceiver ds = true ↔
    ∃ pd ∈ ds, (∃ q, pd.selfType = some (q, .mutable)) ∧ pd.isPlacementReturnDestination = false := by
  rw [hasMutableReceiver, List.any_eq_true]
  constructor
  · rintro ⟨pd, h, hb⟩
    rw [Bool.and_eq_true] at hb
    refine ⟨pd, h, ?_, by simpa using hb.2⟩
    have := hb.1
    split at this
    · rename_i q hq; exact ⟨q, hq⟩
    · cases this
  · rintro ⟨pd, h, ⟨q, hq⟩, hd⟩
    exact ⟨pd, h, by rw [hq, hd]; rfl⟩

/-- The condition which is tested says what it should. -/
theorem needsLifetime_iff {ds : List ArgumentAnalysis} {ps : List SigParam} {ret : Option RTy} {np : List QName}
    {rc : Option TypeConversionPolicy} {b b' : Bool} (h : hasNonPodRef np ps = some b) (h' : returnsPodRef np ret = some b') :
    (hasMutableReceiver ds || (b && b') || (returnsImpl ret && anyParamIsReference ds) ||
        returnsCppref rc || anyParamIsCppref ds) = true ↔ NeedsLifetime ds ps ret np rc := by
  rw [Bool.or_assoc, Bool.or_eq_true, usesWrappers_iff, Bool.or_eq_true, Bool.or_eq_true, hasMutableReceiver_iff,
    Bool.and_eq_true, Bool.and_eq_true]
  constructor
  · rintro (((⟨pd, h1, ⟨q, h2⟩, h3⟩ | ⟨rfl, rfl⟩) | ⟨h1, h2⟩) | h1)
    · exact .mutableReceiver h1 h2 h3
    · obtain ⟨p, hp, hr, m, l, segs, args, q, ht, hq, hn⟩ := hasNonPodRef_true h
      obtain ⟨m', l', segs', args', q', ht', hq', hn'⟩ := (returnsPodRef_iff h').1 rfl
      exact .podOutOfNonPod hp hr ht hq hn ht' hq' hn'
    · rw [anyParamIsReference, List.any_eq_true] at h2
      obtain ⟨pd, hp, hb⟩ := h2
      rw [Bool.or_eq_true, decide_eq_true_iff] at hb
      rw [returnsImpl.eq_def] at h1
      split at h1
      · exact .newOutOfReference rfl hp hb
      · cases h1
    · exact .wrappers h1
  · intro hn
    cases hn with
    | mutableReceiver h1 h2 h3 => exact .inl (.inl (.inl ⟨_, h1, ⟨_, h2⟩, h3⟩))
    | podOutOfNonPod hp hr ht hq hn hret hq' hn' =>
      refine .inl (.inl (.inr ⟨?_, (returnsPodRef_iff h').2 ⟨_, _, _, _, _, hret, hq', hn'⟩⟩))
      cases b with
      | true => rfl
      | false => exact absurd hn (hasNonPodRef_false h hp hr ht hq)
    | newOutOfReference hret h1 hp =>
      refine .inl (.inr ⟨by rw [hret]; rfl, ?_⟩)
      rw [anyParamIsReference, List.any_eq_true]
      exact ⟨_, h1, by rw [Bool.or_eq_true, decide_eq_true_iff]; exact hp⟩
    | wrappers h1 => exact .inr h1

/-! ## What is written where -/

/-- A path is changed if it is that of a pinned reference, and otherwise not. -/
theorem pinned_cases {segs : List String} {args args' : List Ty} (h : addLifetimeToPinned segs args = .ok args') :
    (∃ s m l e r, segs = [s, "pin", "Pin"] ∧ (s = "core" ∨ s = "std") ∧ args = .ref m l e :: r ∧
      args' = .ref m (some "'a") e :: r) ∨ (segs.length < 3 ∧ args' = args) := by
  rw [addLifetimeToPinned.eq_def] at h
  split at h
  · cases h; exact .inr ⟨by decide, rfl⟩
  · rename_i a r
    split at h
    · cases h
    · rename_i ha
      split at h
      · cases h; exact .inr ⟨by simp, rfl⟩
      · rename_i b r
        split at h
        · cases h
        · rename_i hb
          split at h
          · cases h; exact .inr ⟨by simp, rfl⟩
          · rename_i c r
            split at h
            · cases h
            · rename_i hc
              split at h
              · cases h
              · rename_i hr
                push Not at ha hb hc hr
                split at h
                · rename_i args'' hargs
                  cases h
                  rw [addLifetimeToPinArgs.eq_def] at hargs
                  split at hargs
                  · cases hargs
                    refine .inl ⟨a, _, _, _, _, by rw [hb, hc, hr], ?_, rfl, rfl⟩
                    by_cases hs : a = "std"
                    · exact .inr hs
                    · exact .inl (ha hs)
                  · cases hargs
                · cases h

theorem pinned_not {segs : List String} {args : List Ty} (h : addLifetimeToPinned segs args = .wasNotPin) :
    (RTy.plain (.path segs args)).canCarry = false := by
  cases hc : (RTy.plain (.path segs args)).canCarry with
  | false => rfl
  | true =>
    rw [RTy.canCarry.eq_def] at hc
    split at hc
    · rename_i he; cases he
    · rename_i s m l e r he
      cases he
      rw [Bool.or_eq_true, decide_eq_true_iff, decide_eq_true_iff] at hc
      rcases hc with rfl | rfl <;> cases h
    · rename_i he; cases he
    · cases hc

theorem short_cannotCarry {segs : List String} {args : List Ty} (h : segs.length < 3) :
    (RTy.plain (.path segs args)).canCarry = false := by
  cases hc : (RTy.plain (.path segs args)).canCarry with
  | false => rfl
  | true =>
    rw [RTy.canCarry.eq_def] at hc
    split at hc
    · rename_i he; cases he
    · rename_i s m l e r he
      cases he
      simp at h
    · rename_i he; cases he
    · cases hc

/-- A lifetime is given to every type which has a place for it, and no other type is changed. -/
def Given (t t' : RTy) : Prop := (t.canCarry = true → t'.carries = true) ∧ (t.canCarry = false → t' = t)

theorem param_carries {t t' : RTy} (h : addLifetimeToParam t = some t') : Given t t' := by
  rw [addLifetimeToParam.eq_def] at h
  split at h
  · rename_i segs args
    split at h
    · rename_i args' hp
      cases h
      rcases pinned_cases hp with ⟨s, m, l, e, r, rfl, hs, rfl, rfl⟩ | ⟨hs, rfl⟩
      · refine ⟨fun _ => by simp [RTy.carries], fun hc => ?_⟩
        rcases hs with rfl | rfl <;> cases hc
      · exact ⟨fun hc => (by rw [short_cannotCarry hs] at hc; cases hc), fun _ => rfl⟩
    · rename_i hp
      cases h
      exact ⟨fun hc => (by rw [pinned_not hp] at hc; cases hc), fun _ => rfl⟩
    · cases h
  · cases h; exact ⟨fun _ => by simp [RTy.carries], fun h => by cases h⟩
  · cases h; exact ⟨fun _ => by simp [RTy.carries], fun h => by cases h⟩
  · rename_i h1 h2 h3
    cases h
    refine ⟨fun hc => ?_, fun _ => rfl⟩
    rw [RTy.canCarry.eq_def] at hc
    split at hc
    · exact absurd rfl (h2 _ _ _)
    · exact absurd rfl (h1 _ _)
    · exact absurd rfl (h3 _ _)
    · cases hc

/-- A path which is too short to be compared with that of `Pin`. -/
def RTy.shortStd : RTy → Bool
  | .plain (.path segs _) => segs.length < 3 && (segs.head?.all fun s => s = "std" || s = "core")
  | _ => false

theorem return_carries {ret : Option RTy} {r : Option RTy} (h : newReturnType ret = some r) :
    match r with
    | some t' => ∃ t, ret = some t ∧ Given t t' ∧ (t.canCarry = true ∨ t.shortStd = true)
    | none => ∀ t, ret = some t → t.canCarry = false := by
  rw [newReturnType.eq_def] at h
  split at h
  · cases h; exact ⟨_, rfl, ⟨fun _ => by simp [RTy.carries], fun h => by cases h⟩, .inl rfl⟩
  · rename_i segs args
    split at h
    · rename_i args' hp
      cases h
      refine ⟨_, rfl, ?_⟩
      rcases pinned_cases hp with ⟨s, m, l, e, r, rfl, hs, rfl, rfl⟩ | ⟨hs, rfl⟩
      · refine ⟨⟨fun _ => by simp [RTy.carries], fun hc => ?_⟩, .inl ?_⟩
        · rcases hs with rfl | rfl <;> cases hc
        · rcases hs with rfl | rfl <;> rfl
      · refine ⟨⟨fun hc => (by rw [short_cannotCarry hs] at hc; cases hc), fun _ => rfl⟩, .inr ?_⟩
        rw [RTy.shortStd, Bool.and_eq_true, decide_eq_true_iff]
        refine ⟨hs, ?_⟩
        rw [addLifetimeToPinned.eq_def] at hp
        split at hp
        · rfl
        · split at hp
          · cases hp
          · rename_i ha
            rw [List.head?_cons, Option.all_some, Bool.or_eq_true, decide_eq_true_iff, decide_eq_true_iff]
            by_contra hc
            exact ha (not_or.1 hc)
    · rename_i hp
      cases h
      intro t ht; cases ht
      exact pinned_not hp
    · cases h
  · cases h; exact ⟨_, rfl, ⟨fun _ => by simp [RTy.carries], fun h => by cases h⟩, .inl rfl⟩
  · rename_i h1 h2 h3
    cases h
    intro t ht
    subst ht
    cases hc : t.canCarry with
    | false => rfl
    | true =>
      rw [RTy.canCarry.eq_def] at hc
      split at hc
      · exact absurd rfl (h1 _ _ _)
      · exact absurd rfl (h2 _ _)
      · exact absurd rfl (h3 _ _)
      · cases hc

theorem lifetimes_given {ps ps' : List SigParam} (h : addLifetimes ps = some ps') :
    All2 (fun p p' => p' = { p with ty := p'.ty } ∧ Given p.ty p'.ty) ps ps' := by
  induction ps generalizing ps' with
  | nil => cases h; exact .nil
  | cons p ps ih =>
    rw [addLifetimes, List.mapM_cons] at h
    cases hp : addLifetimeToParam p.ty with
    | none => rw [hp] at h; cases h
    | some t =>
      rw [hp] at h
      cases hps : List.mapM (fun p : SigParam => (addLifetimeToParam p.ty).map fun t => { p with ty := t }) ps with
      | none => rw [hps] at h; cases h
      | some qs =>
        rw [hps] at h
        cases h
        exact .cons ⟨rfl, param_carries hp⟩ (ih hps)

/-- What a function's lifetimes are. One which needs none is left alone, as is one whose result has no place for any -
but for the generics, where one is declared if references are wrapped. Otherwise a lifetime is declared and given to the
result, and to every parameter which has a place for it. -/
theorem explicit_lifetime {ds : List ArgumentAnalysis} {ps : List SigParam} {ret : Option RTy} {np : List QName}
    {rc : Option TypeConversionPolicy} {sig : Sig} (h : addExplicitLifetime ds ps ret np rc = some sig) :
    (¬ NeedsLifetime ds ps ret np rc ∧ sig = ⟨false, ps, ret⟩) ∨
    (NeedsLifetime ds ps ret np rc ∧ (∀ t, ret = some t → t.canCarry = false) ∧ sig.params = ps ∧ sig.ret = ret ∧
      (sig.generic = true ↔ UsesWrappers ds rc)) ∨
    (NeedsLifetime ds ps ret np rc ∧ sig.generic = true ∧
      All2 (fun p p' => p' = { p with ty := p'.ty } ∧ Given p.ty p'.ty) ps sig.params ∧
      ∃ t t', ret = some t ∧ sig.ret = some t' ∧ Given t t' ∧ (t.canCarry = true ∨ t.shortStd = true)) := by
  rw [addExplicitLifetime] at h
  split at h
  · rename_i b b' hb hb'
    split at h
    · rename_i hn
      have hn := (needsLifetime_iff hb hb').1 hn
      rw [attachLifetime] at h
      split at h
      · cases h
      · rename_i hr
        cases h
        exact .inr (.inl ⟨hn, return_carries hr, rfl, rfl, usesWrappers_iff⟩)
      · rename_i r hr
        obtain ⟨ps', hps, rfl⟩ := Option.map_eq_some_iff.1 h
        obtain ⟨t, ht, hg, hc⟩ := return_carries hr
        exact .inr (.inr ⟨hn, rfl, lifetimes_given hps, t, r, ht, rfl, hg, hc⟩)
    · rename_i hn
      cases h
      exact .inl ⟨fun hc => hn ((needsLifetime_iff hb hb').2 hc), rfl⟩
  · cases h

/-! ## The types of an analysed function -/

mutual
/-- No lifetime is written in the type, as in those which C++ types are given. -/
def Ty.noLifetime : Ty → Bool
  | .path _ args => Ty.noLifetimes args
  | .ref _ l e => l.isNone && e.noLifetime
  | .ptr _ e => e.noLifetime
  | .array e _ => e.noLifetime
  | .other _ => true
/-- No lifetime is written in any of the types. -/
def Ty.noLifetimes : List Ty → Bool
  | [] => true
  | t :: l => t.noLifetime && Ty.noLifetimes l
end

theorem fromSegs_last {segs : List String} {q : QName} (h : QName.fromSegs segs = some q) :
    segs.getLast? = some q.name := by
  induction segs generalizing q with
  | nil => cases h
  | cons s r ih =>
    cases r with
    | nil => cases h; rfl
    | cons b r =>
      rw [QName.fromSegs] at h
      obtain ⟨q', hq, rfl⟩ := Option.map_eq_some_iff.1 h
      rw [List.getLast?_cons_cons]
      exact ih (q := q') hq

theorem ofTypePath_last {segs : List String} {q : QName} (h : QName.ofTypePath segs = some q) :
    segs.getLast? = some q.name := by
  cases segs with
  | nil => cases h
  | cons s r =>
    rw [QName.ofTypePath] at h
    split at h
    · have := fromSegs_last h
      rw [List.getLast?_cons, this]
      rfl
    · exact fromSegs_last h

set_option maxRecDepth 10000 in
theorem container_not_pin {q : QName} {d : TypeDetails} (h : knownGet q = some d) (hb : d.genericBehavior ≠ .not) :
    q.name ≠ "Pin" := by
  refine known_forall (fun q d => d.genericBehavior ≠ .not → q.name ≠ "Pin") ?_ h hb
  decide +kernel

theorem unwrapMarker_noLifetime {m : String} {segs : List String} {args : List Ty} {t : Ty}
    (h : unwrapMarker m segs args = some t) (hn : (Ty.path segs args).noLifetime = true) : t.noLifetime = true := by
  rw [unwrapMarker] at h
  split at h
  · cases args with
    | nil => cases h
    | cons x l =>
      cases h
      rw [Ty.noLifetime, Ty.noLifetimes, Bool.and_eq_true] at hn
      exact hn.1
  · cases h

/-- A converted type has a place for a lifetime if it borrows, and none is written there. -/
theorem convert_borrow (env : ConvEnv) (ns : List String) (n : Nat) (ctx : ConvCtx) (st st' : Concretes)
    (ty : Ty) (a : Annotated Ty) (htd : NoReferenceTypedef env) (hn : ty.noLifetime = true)
    (h : convertType env ns n ctx st ty = (st', .ok a)) :
    (RTy.plain a.ty).carries = false ∧ ((RTy.plain a.ty).canCarry = true → borrows a.ty = true) := by
  induction n generalizing ctx st st' ty a with
  | zero => cases h
  | succ n ih =>
    have hreg := kind_regular_partial _ _ _ _ _ _ _ _ htd h
    cases convertType_ok h with
    | marker hm h' hr => exact ih _ _ _ _ _ (unwrapMarker_noLifetime h' hn) hr
    | lvalue h' hr =>
      rename_i mu e b
      cases mu with
      | false => exact ⟨by simp [RTy.carries], fun _ => rfl⟩
      | true => exact ⟨by simp [RTy.carries], fun _ => rfl⟩
    | rvalue h' hp hr => exact ⟨rfl, fun h => by cases h⟩
    | ref hr =>
      rw [Ty.noLifetime, Bool.and_eq_true, Option.isNone_iff_eq_none] at hn
      rw [hn.1]
      exact ⟨by simp [RTy.carries], fun _ => rfl⟩
    | array hr => exact ⟨rfl, fun h => by cases h⟩
    | ptr hp hr => exact ⟨rfl, fun h => by cases h⟩
    | done hp =>
      rcases prepared_inv hp with ⟨_, e⟩ | ⟨_, _, _, _, _, e⟩ | ⟨mu, e', he, e⟩ | ⟨t, he, h1, h2, e⟩
      · cases e
      · cases e
      · cases e; exact ⟨rfl, fun h => by cases h⟩
      · cases e
        have h3 := (hreg rfl).2
        dsimp only at h3 ⊢
        cases t with
        | path s a => exact absurd rfl (h1 s a)
        | ref m l e => exact absurd rfl (h3 m l e)
        | ptr => exact ⟨rfl, fun h => by cases h⟩
        | array => exact ⟨rfl, fun h => by cases h⟩
        | other => exact ⟨rfl, fun h => by cases h⟩
    | plain hp hf =>
      rcases finishPath_ok hf with ⟨rfl, _⟩ | ⟨rfl, _⟩
      · exact ⟨by simp [RTy.carries], fun h => by simp [RTy.canCarry] at h⟩
      · exact ⟨by simp [RTy.carries], fun _ => rfl⟩
    | concrete hp hb hi hqn hig ht' hf =>
      rcases finishPath_ok hf with ⟨rfl, _⟩ | ⟨rfl, _⟩
      · exact ⟨by simp [RTy.carries], fun h => by simp [RTy.canCarry] at h⟩
      · exact ⟨by simp [RTy.carries], fun _ => rfl⟩
    | container hp hb hargs hk hf =>
      rcases finishPath_ok hf with ⟨rfl, hq⟩ | ⟨rfl, _⟩
      · obtain ⟨q, hq, _⟩ := hq _ _ rfl
        obtain ⟨d, hd, hgb⟩ := container_known hb
        have hd' := substitutePath_details hd hq
        have hne := container_not_pin hd' (by rw [hgb]; exact hb)
        have hl := ofTypePath_last hq
        dsimp only
        generalize substitutePath _ _ = segs at hl
        have hl : segs.getLast? ≠ some "Pin" := by rw [hl]; exact fun h => hne (Option.some.inj h)
        constructor
        · rw [← Bool.not_eq_true]
          intro hc
          rw [RTy.carries.eq_def] at hc
          split at hc
          · rename_i he; cases he
          · rename_i he
            rw [Bool.and_eq_true, decide_eq_true_iff] at hc
            rw [← (Ty.path.inj (RTy.plain.inj he)).1] at hc
            exact hl hc.1
          · rename_i he; cases he
          · cases hc
        · intro hc
          rw [RTy.canCarry.eq_def] at hc
          split at hc
          · rename_i he; cases he
          · rename_i he
            rw [(Ty.path.inj (RTy.plain.inj he)).1] at hl
            exact absurd rfl hl
          · rename_i he; cases he
          · cases hc
      · exact ⟨by simp [RTy.carries], fun _ => rfl⟩

theorem canCarry_of_borrows {t : Ty} (h : borrows t = true) : (RTy.plain t).canCarry = true := by
  rcases borrows_iff.1 h with ⟨m, l, e, rfl⟩ | ⟨m, l, e, rfl⟩ <;> rfl

/-- The ways a parameter can be converted. -/
theorem argConversion_kinds {env : FnEnv} {m : ArgMode} {a : Annotated Ty} {self pl : Bool} {c : TypeConversionPolicy}
    (h : argConversion env m a self pl = some c) :
    c.rustConversion = m.force.getD .none ∨
    (c.rustConversion = .none ∨ c.rustConversion = .fromStr ∨ (∃ sub, c.rustConversion = .toBoxedUpHolder sub) ∨
      c.rustConversion = .fromValueParamToPtr ∨ c.rustConversion = .fromRValueParamToPtr) ∨
    c.rustConversion = .fromReferenceWrapperToPointer ∧ ¬ env.PlainReferences := by
  rw [argConversion.eq_def] at h
  dsimp only at h
  split at h
  · obtain ⟨sub, hs, rfl⟩ := Option.map_eq_some_iff.1 h
    exact .inr (.inl (.inr (.inr (.inl ⟨_, rfl⟩))))
  · split at h
    · rename_i hf
      cases h
      rw [hf.1]
      exact .inl rfl
    · split at h
      · rw [pathConversion.eq_def] at h
        split at h
        · cases h
        · split at h
          · rename_i hw
            obtain ⟨e, _, rfl⟩ := Option.map_eq_some_iff.1 h
            exact .inr (.inr ⟨rfl, fun hp => hp hw.1⟩)
          · split at h
            · split at h
              · cases h; exact .inr (.inl (.inl rfl))
              · cases h; exact .inr (.inl (.inl rfl))
            · split at h
              · cases h; exact .inr (.inl (.inr (.inl rfl)))
              · split at h
                · cases h; exact .inr (.inl (.inl rfl))
                · cases h; exact .inr (.inl (.inr (.inr (.inr (.inl rfl)))))
      · split at h
        · cases h; exact .inl rfl
        · split at h
          · cases h; exact .inr (.inl (.inr (.inr (.inr (.inr rfl)))))
          · split at h
            · rename_i hw
              cases h
              exact .inr (.inr ⟨rfl, fun hp => hp hw.1⟩)
            · cases h; exact .inl rfl
      · split at h
        · rename_i hw
          split at h
          · cases h
          · cases h
            exact .inr (.inr ⟨rfl, fun hp => hp hw.1⟩)
        · cases h; exact .inl rfl
      · cases h; exact .inl rfl

theorem paramMode_force (f : FuncToConvert) (soph : Sophistication) (kind : FnKind) (idx : Nat) :
    (paramMode f soph kind idx).force = none ∨
    (∃ q d, kind = .traitMethod .destructor q d) ∧ (paramMode f soph kind idx).force = some .fromTypeToPtr ∨
    (∃ q d, kind = .traitMethod .copyConstructor q d ∨ kind = .traitMethod .moveConstructor q d) ∧
      ((paramMode f soph kind idx).force = some .fromPinMaybeUninitToPtr ∨
        (paramMode f soph kind idx).force = some .fromPinMoveRefToPtr) := by
  rw [paramMode.eq_def]
  dsimp only
  split
  · exact .inl rfl
  · exact .inr (.inl ⟨⟨_, _, rfl⟩, rfl⟩)
  · exact .inr (.inr ⟨⟨_, _, .inl rfl⟩, .inl rfl⟩)
  · exact .inr (.inr ⟨⟨_, _, .inr rfl⟩, .inl rfl⟩)
  · exact .inr (.inr ⟨⟨_, _, .inr rfl⟩, .inr rfl⟩)
  · exact .inl rfl

/-- Where references are plain, the parameter which borrows in the bridge has the same type in the function around it. -/
theorem made_borrows {avoidSelf : Bool} {pd : ArgumentAnalysis} {p : SigParam} (h : MadeFor avoidSelf pd p)
    (hc : Coherent pd.conversion) (h1 : pd.conversion.rustConversion ≠ .fromPointerToReferenceWrapper)
    (hb : borrows pd.conversion.convertedRustType = true) : p.ty = .plain pd.conversion.convertedRustType := by
  obtain ⟨_, n, n', l, e, u, h⟩ := h
  rw [Coherent.eq_def] at hc
  have ptr : ∀ t, ptrParts t ≠ none → borrows t = false := by
    intro t ht
    cases t <;> first | rfl | exact absurd rfl ht
  have ptr' : ∀ {α} {g : Bool × Ty → α} {x : α}, (ptrParts pd.conversion.unwrappedType).map g = some x →
      pd.conversion.convertedRustType = pd.conversion.unwrappedType → False := by
    intro α g x hg hu
    rw [hu, ptr _ (fun hn => by rw [hn] at hg; cases hg)] at hb
    cases hb
  rw [TypeConversionPolicy.rustConvert] at h
  split at h
  all_goals rename_i hr
  · exact (RustParam.param.inj (Prod.mk.inj (Option.some.inj h)).1).1.symm
  · rw [hr] at hc
    rw [TypeConversionPolicy.convertedRustType, hc.1] at hb
    cases hb
  · rw [hr] at hc
    dsimp only at hc
    rw [hc] at hb
    cases hb
  · rw [hr] at hc; exact (ptr' h hc).elim
  · rw [hr] at hc; exact (ptr' h hc).elim
  · rw [hr] at hc; exact (ptr' h hc).elim
  · rw [hr] at hc
    dsimp only at hc
    rw [TypeConversionPolicy.convertedRustType, hc] at hb
    cases hb
  · rw [hr] at hc
    dsimp only at hc
    rw [TypeConversionPolicy.convertedRustType, hc] at hb
    cases hb
  · obtain ⟨_, _, h⟩ := Option.map_eq_some_iff.1 h; cases h
  · exact absurd hr h1
  · rw [hr] at hc; exact (ptr' h hc).elim

theorem thisType_ptr {v : Option QName} {diag : QName} {ty ty' : Ty} {q : QName × ReceiverMutability}
    (h : thisType v diag ty = .done (.ok (q, ty'))) : ∃ mu e, ty' = .ptr mu e := by
  rw [thisType.eq_def] at h
  split at h
  · dsimp only at h
    split at h
    · cases h; exact ⟨_, _, rfl⟩
    · split at h
      · cases h
      · cases h; exact ⟨_, _, rfl⟩
  · cases h

theorem convert_lvalue {env : ConvEnv} {ns : List String} {n : Nat} {ctx : ConvCtx} {st st' : Concretes} {mu : Bool}
    {e : Ty} {a : Annotated Ty}
    (h : convertType env ns n ctx st (.path ["__bindgen_marker_Reference"] [.ptr mu e]) = (st', .ok a)) :
    a.kind = .reference ∨ a.kind = .mutableReference := by
  cases n with
  | zero => cases h
  | succ n =>
    rw [convertType.eq_def] at h
    dsimp only at h
    have h1 : unwrapMarker "__bindgen_marker_UnusedTemplateParam" ["__bindgen_marker_Reference"] [.ptr mu e] = none := rfl
    have h2 : unwrapMarker "__bindgen_marker_Opaque" ["__bindgen_marker_Reference"] [.ptr mu e] = none := rfl
    have h3 : unwrapReference ["__bindgen_marker_Reference"] [.ptr mu e] false = some (mu, e) := rfl
    rw [h1, h2, h3] at h
    obtain ⟨s, b, _, h⟩ := thenDo_ok h
    cases h
    cases mu
    · exact .inl rfl
    · exact .inr rfl

theorem forced_ptr {env : FnEnv} {m : ArgMode} {a : Annotated Ty} {self pl : Bool} {c : TypeConversionPolicy} {mu : Bool}
    {e : Ty} (h : argConversion env m { a with ty := .ptr mu e, kind := .pointer } self pl = some c)
    (hf : m.force = some .fromTypeToPtr) (hm : m.isMove = false) : c.rustConversion = .fromTypeToPtr := by
  rw [argConversion.eq_def] at h
  simp [hf, hm] at h
  rw [← h]

/-- The object a method is called on is borrowed, but for those which make or destroy it. -/
theorem self_borrows {env : FnEnv} {f : FuncToConvert} {soph : Sophistication} {kind : FnKind} {ns : List String}
    {diag : QName} {idx : Nat} {i : FnArg} {s1 s2 : FnState} {p : FnArg × ArgumentAnalysis}
    (h : convertFnArg env s1 ns diag (paramMode f soph kind idx) i = .done (s2, .ok p)) (hs : p.2.selfType.isSome = true)
    (hd : p.2.dest = false) : p.2.hasLifetime = true ∨ p.2.conversion.rustConversion = .fromTypeToPtr ∨
      ∃ q d, kind = .traitMethod .copyConstructor q d ∨ kind = .traitMethod .moveConstructor q d := by
  obtain ⟨name, ty, self, into, hp, hn⟩ := convertFnArg_ok h
  obtain ⟨st, a, conv, hc, _, hv, rfl⟩ := convertNamedArg_ok hn
  cases hp with
  | thisRef ht hr =>
    left
    rename_i ty0 ty' q
    obtain ⟨mu, e, rfl⟩ := thisType_ptr ht
    have hk := convert_lvalue hc
    show (decide (a.kind = .reference) || decide (a.kind = .mutableReference)) = true
    rcases hk with hk | hk <;> rw [hk] <;> rfl
  | thisPtr ht hr =>
    right
    rw [paramMode.eq_def] at hr hv hd
    dsimp only at hr hv hd
    split at hr
    · cases hd
    · left
      rename_i ty0 ty' q _ _ _
      obtain ⟨mu, e, rfl⟩ := thisType_ptr ht
      obtain ⟨_, b, _, _, rfl⟩ := convert_ptr hc
      exact forced_ptr hv rfl rfl
    · exact .inr ⟨_, _, .inl rfl⟩
    · exact .inr ⟨_, _, .inr rfl⟩
    · exact .inr ⟨_, _, .inr rfl⟩
    · cases hr
  | other hnt hv' => cases hs

/-! ## The signatures which are generated -/

/-- A type of the generated function which borrows something. -/
def RTy.borrowed : RTy → Bool
  | .plain t => borrows t
  | .impl .. => false

/-- The type of a parameter which takes an object by value. -/
def RTy.byValue : RTy → Bool
  | .impl (.valueParam _) _ => true
  | _ => false

theorem Relifed.borrowed {t t' : RTy} (h : Relifed t t') : t'.borrowed = t.borrowed := by
  cases h with
  | same => rfl
  | ref => rfl
  | pin =>
    rename_i a m l e r
    show borrows _ = borrows _
    rw [Bool.eq_iff_iff, borrows_iff, borrows_iff]
    constructor <;> rintro (⟨m', l', e', h⟩ | ⟨m', l', e', h⟩)
    · cases h
    · cases h; exact .inr ⟨_, _, _, rfl⟩
    · cases h
    · cases h; exact .inr ⟨_, _, _, rfl⟩
  | impl => rfl

theorem Relifed.byValue {t t' : RTy} (h : Relifed t t') : t'.byValue = t.byValue := by
  cases h with
  | same => rfl
  | ref => rfl
  | pin => rfl
  | impl =>
    rename_i b l
    cases b <;> rfl

/-- How the signature of a generated function comes about. -/
structure SigSteps (a : FnAnalysis) (nonPod : List QName) (sig : Sig) where
  made : List SigParam
  params : List SigParam
  ret : Option RTy
  final : Sig
  hmade : All2 (MadeFor a.kind.avoidsSelf) (a.paramDetails.filter fun pd => !pd.dest) made
  hperm : params.Perm made
  hplain : ∀ ty, ret = some (.plain ty) → a.retType = some ty
  himpl : ∀ b l, ret = some (.impl b l) → l = [] ∧
    ((∃ pd ∈ a.paramDetails, pd.conversion.rustConversion = .fromPlacementParamToNewReturn) ∨
      ∃ b q, a.kind = .method (.constructor b) q)
  hlife : addExplicitLifetime a.paramDetails params ret nonPod a.retConversion = some final
  hfinal : (∀ c, a.retConversion = some c → c.rustConversion = .none) → sig = final

theorem common_sig {a : FnAnalysis} {nonPod : List QName} {order : Option (List Nat)} {ret : Option RTy} {sig : Sig}
    {body : List Rs} (h : commonParts (a.gen nonPod) a.kind.avoidsSelf order ret = some (sig, body))
    (hs : SoundParams a.kind.avoidsSelf a.paramDetails)
    (ho : ∀ o, order = some o → o.Perm (List.range ((a.gen nonPod).details.filter fun pd => !pd.dest).length))
    (hret : (∃ b q, a.kind = .method (.constructor b) q) ∧ ret = some (.impl (.newOf (.path ["Self"] [])) []) ∨
      ret = none) : Nonempty (SigSteps a nonPod sig) := by
  rw [commonParts] at h
  obtain ⟨st, hloop, h⟩ := Option.bind_eq_some_iff.1 h
  obtain ⟨params, hord, h⟩ := Option.bind_eq_some_iff.1 h
  obtain ⟨sig0, hsig, h⟩ := Option.bind_eq_some_iff.1 h
  obtain ⟨⟨call, ret'⟩, hcall, h⟩ := Option.bind_eq_some_iff.1 h
  obtain ⟨stmts, hstmts, h⟩ := Option.map_eq_some_iff.1 h
  cases h
  have hoc : ∀ pd ∈ a.paramDetails, pd.dest = false → pd.conversion.rustConversion ≠ .fromPlacementParamToNewReturn :=
    fun pd hm hd => (hs.otherConversion pd hm hd).1
  obtain ⟨⟨ps, hps, htypes⟩, hsret⟩ := types_of_loop a.kind.avoidsSelf hloop
    (fun pd hm hd => (hs.destConversion pd hm hd).2) hoc
  rw [List.nil_append] at hps
  have hret' : ∀ x, st.ret = some x → (∃ ty, x = .impl (.newOf ty) [] ∧
      ((∃ pd ∈ a.paramDetails, pd.conversion.rustConversion = .fromPlacementParamToNewReturn) ∨
        ∃ b q, a.kind = .method (.constructor b) q)) ∨ ∃ ty, x = .plain ty ∧ a.retType = some ty := by
    intro x hx
    rw [hsret, Option.or_eq_some_iff] at hx
    rcases hx with hx | ⟨_, hx⟩
    · have := List.mem_of_getLast? hx
      obtain ⟨pd, hm, hpd⟩ := List.mem_filterMap.1 this
      split at hpd
      · rename_i hr
        obtain ⟨y, _, rfl⟩ := Option.map_eq_some_iff.1 hpd
        exact .inl ⟨_, rfl, .inl ⟨pd, hm, hr⟩⟩
      · cases hpd
    · rw [Option.or_eq_some_iff] at hx
      rcases hx with hx | ⟨_, hx⟩
      · rcases hret with ⟨hk, rfl⟩ | rfl
        · cases hx; exact .inl ⟨_, rfl, .inr hk⟩
        · cases hx
      · obtain ⟨ty, hty, rfl⟩ := Option.map_eq_some_iff.1 hx
        exact .inr ⟨ty, rfl, hty⟩
  refine ⟨⟨ps, params, st.ret, sig0, htypes, ?_, ?_, ?_, hsig, ?_⟩⟩
  · rw [← hps]
    cases order with
    | none => cases hord; exact List.Perm.refl _
    | some o =>
      have hlen : ((a.gen nonPod).details.filter fun pd => !pd.dest).length = st.params.length := by
        rw [hps]; exact htypes.length
      exact reorder_perm hord (by rw [← hlen]; exact ho o rfl)
  · intro ty hty
    rcases hret' _ hty with ⟨_, h, _⟩ | ⟨ty', h, h'⟩
    · cases h
    · cases h; exact h'
  · intro b l hty
    rcases hret' _ hty with ⟨_, h, h'⟩ | ⟨ty', h, h'⟩
    · cases h; exact ⟨rfl, h'⟩
    · cases h
  · intro hnone
    have : convertedCall (a.gen nonPod) (.maybe (.call (a.gen nonPod).bridgeName st.args)
        (st.unsafeConversion || (a.gen nonPod).needed = .justBridge))
        (decide ((a.gen nonPod).needed = .always) || (a.gen nonPod).alwaysUnsafe) sig0.ret st.counter =
        some (.maybe (.call (a.gen nonPod).bridgeName st.args)
        (st.unsafeConversion || (a.gen nonPod).needed = .justBridge), sig0.ret) := by
      rw [convertedCall]
      cases hrc : (a.gen nonPod).retConversion with
      | none => rfl
      | some c =>
        have := hnone c hrc
        dsimp only
        rw [if_neg (by rw [TypeConversionPolicy.rustWorkNeeded, this]; simp)]
    rw [this] at hcall
    cases hcall
    rfl

theorem sig_steps {env : FnEnv} {s s' : FnState} {name n : ApiName} {f : FuncToConvert}
    {soph : Sophistication} {pre : Option String} {a : FnAnalysis} {nonPod : List QName} {r : FnResult} {it : RsFnItem}
    (t : FnSteps env s name f soph pre s' a n) (hx : a.ignoreReason = none)
    (hd : Described f a.kind) (hg : genFunction n.name a nonPod = some r) (hit : it ∈ r.fns) :
    Nonempty (SigSteps a nonPod it.sig) := by
  obtain ⟨_, _, _, hbad, _, _⟩ := exposed_parts t hx
  obtain ⟨_, ret, hc, hret, _⟩ := commonParts_of_fns hg hit
  obtain ⟨h1, _⟩ := t.trait_details hbad
  rw [h1] at hc
  refine common_sig hc (t.sound hx hd) (t.order_perm hx hd nonPod) ?_
  rcases hret with h | ⟨_, h⟩
  · exact .inl h
  · exact .inr h

/-- What is asked of a function whose lifetimes are looked at: C++ has no lifetimes, and a destructor gives nothing
back. -/
structure NoLifetimes (f : FuncToConvert) (kind : FnKind) : Prop where
  inputs : ∀ n ty, FnArg.typed n ty ∈ f.inputs → ty.noLifetime = true
  output : ∀ ty, f.output = some ty → ty.noLifetime = true
  destructor : (∃ q d, kind = .traitMethod .destructor q d) → f.output = none

/-- Where references are plain, what is given back is not wrapped. -/
theorem FnSteps.ret_plain {env : FnEnv} {s s' : FnState} {name n : ApiName} {f : FuncToConvert} {soph : Sophistication}
    {pre : Option String} {a : FnAnalysis} (t : FnSteps env s name f soph pre s' a n) (hpl : env.PlainReferences)
    (htd : NoReferenceTypedef env.conv) (hout : ∀ ty, f.output = some ty → ty.noLifetime = true) :
    ∀ c, a.retConversion = some c → c.rustConversion = .none ∧ (c.populateReturnValue = true →
      (RTy.plain c.unconvertedRustType).carries = false ∧
      ((RTy.plain c.unconvertedRustType).canCarry = true → borrows c.unconvertedRustType = true)) := by
  intro c hc
  rw [t.retConversion_eq] at hc
  rcases t.hret with ⟨hr, _⟩ | ⟨e, _, hr, _⟩
  · have hr := convertReturn_ok hr
    generalize f.output = out at hr hout
    generalize t.ret = ret at hr hc
    generalize t.s4 = s4 at hr
    cases hr with
    | nothing => cases hc
    | plain h1 hp hr =>
      obtain ⟨st, hcv, _⟩ := convertBoxed_ok h1
      have hb := convert_borrow _ _ _ _ _ _ _ _ htd (hout _ rfl) hcv
      rw [plainReturn, if_neg (by exact fun hh => hpl hh.2)] at hr
      cases hr
      cases hc
      exact ⟨rfl, fun _ => hb⟩
    | value h1 ht hq hp hr =>
      rcases valueReturn_ok hr with ⟨q, _, _, _, rfl⟩ | ⟨_, _, rfl⟩
      · cases hc; exact ⟨rfl, fun h => by cases h⟩
      · cases hc
        refine ⟨rfl, fun _ => ?_⟩
        rw [TypeConversionPolicy.unconvertedRustType, TypeConversionPolicy.newToUniquePtr]
        dsimp only
        rw [TypeConversionPolicy.makeUniquePtrType, ht]
        exact ⟨rfl, fun h => by cases h⟩
  · rw [hr] at hc; cases hc

/-- Every parameter which is not the place for the result comes from one of C++. -/
theorem FnSteps.given {env : FnEnv} {s s' : FnState} {name n : ApiName} {f : FuncToConvert} {soph : Sophistication}
    {pre : Option String} {a : FnAnalysis} (t : FnSteps env s name f soph pre s' a n) (hx : a.ignoreReason = none) :
    ∀ pd ∈ a.paramDetails, (∃ m e, pd.dest = true ∧ pd.conversion.convertedRustType = .ptr m e) ∨
      pd.dest = false ∧ ∃ idx i s1 s2 p, i ∈ f.inputs ∧ p.2 = pd ∧
        convertFnArg env s1 name.name.ns ⟨name.name.ns, t.diag⟩ (paramMode f soph a.kind idx) i = .done (s2, .ok p) := by
  obtain ⟨he, _, _, hbad, _, _⟩ := exposed_parts t hx
  obtain ⟨hm, _⟩ := t.modes he hbad
  intro pd hpd
  rw [t.details_eq] at hpd
  obtain ⟨p, hp, rfl⟩ := List.mem_map.1 hpd
  rcases List.mem_append.1 hp with hp | hp
  · obtain ⟨i, hi, idx, s1, s2, hcv⟩ := hm.all2.right hp
    cases hd : p.2.dest with
    | true =>
      obtain ⟨m, e, h⟩ := dest_pointer hcv hd
      exact .inl ⟨m, e, rfl, by rw [h]; rfl⟩
    | false => exact .inr ⟨rfl, idx, i, s1, s2, p, hi, rfl, hcv⟩
  · rcases t.ret_shape with ⟨h, _⟩ | ⟨q, ty, e, _, h3, h4, h6, h5⟩ | ⟨h, _⟩
    · rw [h] at hp; cases hp
    · rw [h3] at hp
      cases List.mem_singleton.1 hp
      exact .inl ⟨true, e, h6, by rw [h5]; rfl⟩
    · rw [h] at hp; cases hp

theorem argConversion_same {env : FnEnv} {m : ArgMode} {a : Annotated Ty} {self pl : Bool} {c : TypeConversionPolicy}
    (h : argConversion env m a self pl = some c) (hr : c.rustConversion = .none) : c.unwrappedType = a.ty := by
  rw [argConversion.eq_def] at h
  dsimp only at h
  split at h
  · obtain ⟨sub, hs, rfl⟩ := Option.map_eq_some_iff.1 h
    cases hr
  · split at h
    · cases h; rfl
    · split at h
      · rename_i ht
        rw [ht]
        rw [pathConversion.eq_def] at h
        split at h
        · cases h
        · split at h
          · obtain ⟨e, _, rfl⟩ := Option.map_eq_some_iff.1 h
            cases hr
          · split at h
            · split at h
              · cases h; rfl
              · cases h; rfl
            · split at h
              · cases h; rfl
              · split at h
                · cases h; rfl
                · cases h; rfl
      · rename_i ht
        rw [ht]
        split at h
        · cases h; rfl
        · split at h
          · cases h; cases hr
          · split at h
            · cases h; rfl
            · cases h; rfl
      · rename_i ht
        rw [ht]
        split at h
        · split at h
          · cases h
          · cases h; cases hr
        · cases h; rfl
      · cases h; rfl

theorem thisType_noLifetime {v : Option QName} {diag : QName} {ty ty' : Ty} {q : QName × ReceiverMutability}
    (h : thisType v diag ty = .done (.ok (q, ty'))) (hn : ty.noLifetime = true) : ty'.noLifetime = true := by
  rw [thisType.eq_def] at h
  split at h
  · dsimp only at h
    split at h
    · cases h; rfl
    · split at h
      · cases h
      · cases h; exact hn
  · cases h

/-- A parameter, where references are plain and the function gives something back. -/
theorem given_param {env : FnEnv} (hpl : env.PlainReferences) (htd : NoReferenceTypedef env.conv)
    (hreal : ⟨["core", "pin"], "Pin"⟩ ∈ env.podSafe) {f : FuncToConvert}
    {soph : Sophistication} {kind : FnKind} {ns : List String} {diag : QName} {idx : Nat} {i : FnArg} {s1 s2 : FnState}
    {p : FnArg × ArgumentAnalysis} (hi : i ∈ f.inputs) (hn : NoLifetimes f kind)
    (hk : (∃ q d, kind = .traitMethod .destructor q d ∨ kind = .traitMethod .copyConstructor q d ∨
      kind = .traitMethod .moveConstructor q d) → False)
    (h : convertFnArg env s1 ns diag (paramMode f soph kind idx) i = .done (s2, .ok p)) (hd : p.2.dest = false) :
    p.2.hasLifetime = borrows p.2.conversion.convertedRustType ∧ Coherent p.2.conversion ∧
    (p.2.selfType.isSome = true → p.2.hasLifetime = true) ∧
    (p.2.conversion.rustConversion = .none ∨ p.2.conversion.rustConversion = .fromStr ∨
      (∃ sub, p.2.conversion.rustConversion = .toBoxedUpHolder sub) ∨
      p.2.conversion.rustConversion = .fromValueParamToPtr ∨ p.2.conversion.rustConversion = .fromRValueParamToPtr) ∧
    (borrows p.2.conversion.convertedRustType = true → (RTy.plain p.2.conversion.convertedRustType).carries = false) := by
  have hforce : (paramMode f soph kind idx).force = none := by
    rcases paramMode_force f soph kind idx with h | ⟨⟨q, d, h⟩, _⟩ | ⟨⟨q, d, h⟩, _⟩
    · exact h
    · exact (hk ⟨q, d, .inl h⟩).elim
    · exact (hk ⟨q, d, .inr h⟩).elim
  have hb := convertFnArg_borrows hreal hpl htd h fun hf => by rw [hforce] at hf; cases hf
  have hkinds : p.2.conversion.rustConversion = .none ∨ p.2.conversion.rustConversion = .fromStr ∨
      (∃ sub, p.2.conversion.rustConversion = .toBoxedUpHolder sub) ∨
      p.2.conversion.rustConversion = .fromValueParamToPtr ∨ p.2.conversion.rustConversion = .fromRValueParamToPtr := by
    obtain ⟨name, ty, self, into, hp, hn⟩ := convertFnArg_ok h
    obtain ⟨st, a, conv, hc, _, hv, rfl⟩ := convertNamedArg_ok hn
    rcases argConversion_kinds hv with h | h | ⟨_, h⟩
    · rw [hforce] at h; exact .inl h
    · exact h
    · exact absurd hpl h
  refine ⟨hb.1, param_coherent h, fun hs => ?_, hkinds, fun hbo => ?_⟩
  · rcases self_borrows h hs hd with h | h | ⟨q, d, h⟩
    · exact h
    · rw [h] at hkinds
      rcases hkinds with h | h | ⟨_, h⟩ | h | h <;> cases h
    · exact (hk ⟨q, d, .inr h⟩).elim
  · have hcoh := param_coherent h
    obtain ⟨name, ty, self, into, hp, hn'⟩ := convertFnArg_ok h
    obtain ⟨st, a, conv, hc, _, hv, rfl⟩ := convertNamedArg_ok hn'
    have hty : ty.noLifetime = true := by
      cases hp with
      | thisRef ht hr =>
        show (Ty.noLifetime _ && true) = true
        rw [thisType_noLifetime ht (hn.inputs _ _ hi)]
        rfl
      | thisPtr ht hr => exact thisType_noLifetime ht (hn.inputs _ _ hi)
      | other => exact hn.inputs _ _ hi
    have hcb := convert_borrow _ _ _ _ _ _ _ _ htd hty hc
    change borrows conv.convertedRustType = true at hbo
    show (RTy.plain conv.convertedRustType).carries = false
    have hnone : conv.rustConversion = .none := by
      change Coherent conv at hcoh
      rw [Coherent.eq_def] at hcoh
      change conv.rustConversion = .none ∨ conv.rustConversion = .fromStr ∨
        (∃ sub, conv.rustConversion = .toBoxedUpHolder sub) ∨
        conv.rustConversion = .fromValueParamToPtr ∨ conv.rustConversion = .fromRValueParamToPtr at hkinds
      rcases hkinds with h | h | ⟨_, h⟩ | h | h <;> rw [h] at hcoh <;> dsimp only at hcoh
      · exact h
      · rw [TypeConversionPolicy.convertedRustType, hcoh.1] at hbo
        cases hbo
      · rw [hcoh] at hbo
        cases hbo
      · rw [TypeConversionPolicy.convertedRustType, hcoh] at hbo
        cases hbo
      · rw [TypeConversionPolicy.convertedRustType, hcoh] at hbo
        cases hbo
    rw [convertedRustType_borrows hbo]
    rw [argConversion_same hv hnone]
    exact hcb.1

theorem filter_all2 {α β : Type} {R : α → β → Prop} {P : α → Bool} {Q : β → Bool} {l : List α} {m : List β}
    (h : All2 R l m) (hpq : ∀ a ∈ l, ∀ b, R a b → Q b = P a) : (m.filter Q).length = (l.filter P).length := by
  induction h with
  | nil => rfl
  | cons hab _ ih =>
    rename_i a b l m _
    have hq := hpq a List.mem_cons_self b hab
    have ih := ih fun a ha => hpq a (List.mem_cons_of_mem _ ha)
    rw [List.filter_cons, List.filter_cons, hq]
    cases P a with
    | true => simpa using ih
    | false => simpa using ih

/-- What each parameter of the generated function is, where references are plain and something is given back. -/
theorem made_kinds {avoidSelf : Bool} {pd : ArgumentAnalysis} {p : SigParam} (h : MadeFor avoidSelf pd p)
    (hc : Coherent pd.conversion)
    (hk : pd.conversion.rustConversion = .none ∨ pd.conversion.rustConversion = .fromStr ∨
      (∃ sub, pd.conversion.rustConversion = .toBoxedUpHolder sub) ∨
      pd.conversion.rustConversion = .fromValueParamToPtr ∨ pd.conversion.rustConversion = .fromRValueParamToPtr) :
    p.ty.borrowed = borrows pd.conversion.convertedRustType ∧
      (p.ty.byValue = true ↔ pd.conversion.rustConversion = .fromValueParamToPtr) ∧
      (p.ty.borrowed = true ∨ p.ty.byValue = true → p.ty.canCarry = true) := by
  obtain ⟨_, n, n', l, e, u, h⟩ := h
  rw [Coherent.eq_def] at hc
  rw [TypeConversionPolicy.rustConvert] at h
  rcases hk with hr | hr | ⟨sub, hr⟩ | hr | hr <;> rw [hr] at h hc <;> dsimp only at h hc <;>
    have ht := (RustParam.param.inj (Prod.mk.inj (Option.some.inj h)).1).1 <;> rw [← ht, hr]
  · exact ⟨rfl, ⟨fun h => by (cases h), fun h => by cases h⟩, fun h => by
      rcases h with h | h
      · exact canCarry_of_borrows h
      · cases h⟩
  · refine ⟨?_, ⟨fun h => by (cases h), fun h => by cases h⟩, fun _ => rfl⟩
    rw [TypeConversionPolicy.convertedRustType, hc.1]
    rfl
  · refine ⟨?_, ⟨fun h => by (cases h), fun h => by cases h⟩, fun h => ?_⟩
    · rw [hc]; rfl
    · rcases h with h | h <;> cases h
  · refine ⟨?_, ⟨fun _ => rfl, fun _ => rfl⟩, fun _ => rfl⟩
    rw [TypeConversionPolicy.convertedRustType, hc]
    rfl
  · refine ⟨?_, ⟨fun h => by (cases h), fun h => by cases h⟩, fun _ => rfl⟩
    rw [TypeConversionPolicy.convertedRustType, hc]
    rfl

/-- All there is to know about the parameters of a generated function which gives something back. -/
theorem FnSteps.sig_params {env : FnEnv} {s s' : FnState} {name n : ApiName} {f : FuncToConvert} {soph : Sophistication}
    {pre : Option String} {a : FnAnalysis} (t : FnSteps env s name f soph pre s' a n) (hx : a.ignoreReason = none)
    (hreal : env.Real) (hpl : env.PlainReferences) (htd : NoReferenceTypedef env.conv) (hd : Described f a.kind)
    (hn : NoLifetimes f a.kind) {nonPod : List QName} {sig : Sig} (u : SigSteps a nonPod sig)
    (hout : f.output.isSome = true ∨ ∃ b q, a.kind = .method (.constructor b) q) :
    All2 (fun pd p => (p.ty.borrowed = borrows pd.conversion.convertedRustType ∧ p.ty.borrowed = pd.hasLifetime) ∧
      (p.ty.byValue = true ↔ pd.conversion.rustConversion = .fromValueParamToPtr) ∧
      (p.ty.borrowed = true ∨ p.ty.byValue = true → p.ty.canCarry = true) ∧
      (p.ty.borrowed = true → p.ty.carries = false) ∧ (pd.selfType.isSome = true → p.ty.borrowed = true))
      (a.paramDetails.filter fun pd => !pd.dest) u.made ∧
    (∀ pd ∈ a.paramDetails, pd.dest = true → pd.hasLifetime = false ∧
      borrows pd.conversion.convertedRustType = false ∧ pd.conversion.rustConversion ≠ .fromValueParamToPtr) ∧
    ∀ pd ∈ a.paramDetails, pd.conversion.rustConversion ≠ .fromReferenceWrapperToPointer := by
  have hk : (∃ q d, a.kind = .traitMethod .destructor q d ∨ a.kind = .traitMethod .copyConstructor q d ∨
      a.kind = .traitMethod .moveConstructor q d) → False := by
    rintro ⟨q, d, hk⟩
    rcases hout with hout | ⟨b, q', hc⟩
    · have : f.output = none := by
        rcases hk with hk | hk
        · exact hn.destructor ⟨q, d, hk⟩
        · exact hd.noResult (.inr ⟨q, d, hk⟩)
      rw [this] at hout; cases hout
    · rw [hc] at hk
      rcases hk with hk | hk | hk <;> cases hk
  have hsound := t.sound hx hd
  refine ⟨u.hmade.mono ?_, ?_, ?_⟩
  · intro pd p hpd hm
    obtain ⟨hpd, hdest⟩ := List.mem_filter.1 hpd
    have hdest : pd.dest = false := by simpa using hdest
    rcases t.given hx pd hpd with ⟨_, _, h, _⟩ | ⟨_, idx, i, s1, s2, q, hi, rfl, hcv⟩
    · rw [hdest] at h; cases h
    · obtain ⟨h1, h2, h3, h4, h5⟩ := given_param hpl htd (real_pin hreal) hi hn hk hcv hdest
      obtain ⟨h6, h7, h8⟩ := made_kinds hm h2 h4
      refine ⟨⟨h6, h6.trans h1.symm⟩, h7, h8, fun hb => ?_, fun hs => ?_⟩
      · rw [h6] at hb
        rw [made_borrows hm h2 (hsound.otherConversion _ hpd hdest).2 hb]
        exact h5 hb
      · rw [h6, ← h1]; exact h3 hs
  · intro pd hpd hdest
    have hb := t.all_borrow (real_pin hreal) hpl htd
    rw [t.details_eq] at hpd
    obtain ⟨q, hq, rfl⟩ := List.mem_map.1 hpd
    have hb := (hb q hq).1
    have : borrows q.2.conversion.convertedRustType = false := by
      rcases t.given hx q.2 (by rw [t.details_eq]; exact List.mem_map_of_mem hq) with ⟨m, e, _, h⟩ | ⟨h, _⟩
      · rw [h]; rfl
      · rw [hdest] at h; cases h
    refine ⟨hb.trans this, this, fun h => ?_⟩
    have := (hsound.destConversion q.2 (by rw [t.details_eq]; exact List.mem_map_of_mem hq) hdest).2
    rw [h] at this
    rcases this with h | h <;> cases h
  · intro pd hpd h
    cases hdest : pd.dest with
    | true =>
      have := (hsound.destConversion pd hpd hdest).2
      rw [h] at this
      rcases this with h | h <;> cases h
    | false =>
      rcases t.given hx pd hpd with ⟨_, _, h, _⟩ | ⟨_, idx, i, s1, s2, q, hi, rfl, hcv⟩
      · rw [hdest] at h; cases h
      · obtain ⟨h1, h2, h3, h4, h5⟩ := given_param hpl htd (real_pin hreal) hi hn hk hcv hdest
        rw [h] at h4
        rcases h4 with h | h | ⟨_, h⟩ | h | h <;> cases h

/-! ## What is promised -/

theorem borrowed_canCarry {t : RTy} (h : t.borrowed = true) : t.canCarry = true := by
  cases t with
  | plain t => exact canCarry_of_borrows h
  | impl b l => cases h

/-- **C24 (partial)**, what is borrowed: if the Rust function generated for a C++ function gives back something borrowed,
exactly one of its parameters is borrowed. If lifetimes are written, one is declared, and both have it; if not, neither
has any, and Rust gives them the same. Only where references are plain, and no typedef stands for one. -/
theorem borrowed_result_partial {env : FnEnv} {s s' : FnState} {name n : ApiName} {f : FuncToConvert}
    {soph : Sophistication} {pre : Option String} {a : FnAnalysis} {nonPod : List QName} {r : FnResult} {it : RsFnItem}
    (hreal : env.Real) (hpl : env.PlainReferences) (htd : NoReferenceTypedef env.conv)
    (h : analyzeForeignFn env s name f soph pre = .done (s', a, n)) (hx : a.ignoreReason = none)
    (hd : Described f a.kind) (hn : NoLifetimes f a.kind)
    (hg : genFunction n.name a nonPod = some r) (hit : it ∈ r.fns) {ty : RTy} (ht : it.sig.ret = some ty)
    (hb : ty.borrowed = true) :
    ∃ p, it.sig.params.filter (·.ty.borrowed) = [p] ∧ p.ty.carries = it.sig.generic ∧ ty.carries = it.sig.generic := by
  have hone := fun t => reference_return_partial (t := t) hreal hpl htd h hx
  rw [bridge_params_agree h] at hone
  have hra := bridge_return_agrees h
  obtain ⟨t⟩ := analyze_steps h
  obtain ⟨u⟩ := sig_steps t hx hd hg hit
  have hrp := t.ret_plain hpl htd hn.output
  rw [u.hfinal fun c hc => (hrp c hc).1] at ht ⊢
  obtain ⟨hps, hret⟩ := relifed_sig u.hlife
  rcases hret with ⟨_, h2⟩ | ⟨t0, t1, h1, h2, h3⟩
  · rw [h2] at ht; cases ht
  rw [h2] at ht
  cases ht
  rw [h3.borrowed] at hb
  cases t0 with
  | impl b l => cases hb
  | plain ty0 =>
    change borrows ty0 = true at hb
    have hrt := u.hplain ty0 h1
    have hcount := (hone ty0 hrt hb).1
    rw [hrt] at hra
    obtain ⟨c, hc, hra⟩ := Option.bind_eq_some_iff.1 hra.symm
    have hty0 : (RTy.plain ty0).carries = false := by
      split at hra
      · rename_i hpop
        cases hra
        exact ((hrp c hc).2 hpop).1
      · cases hra
    have hout : f.output.isSome = true := by
      rcases t.ret_shape with ⟨_, h⟩ | ⟨_, _, _, h, _⟩ | ⟨_, h, _⟩
      · rw [h] at hc; cases hc
      · exact h
      · exact h
    obtain ⟨hmade, hdest, _⟩ := t.sig_params hx hreal hpl htd hd hn u (.inl hout)
    have hlen : (u.final.params.filter (·.ty.borrowed)).length = 1 := by
      rw [filter_all2 hps (P := (·.ty.borrowed)) fun p _ q hr => hr.2.borrowed]
      rw [(u.hperm.filter _).length_eq]
      rw [filter_all2 hmade (P := fun pd => borrows pd.conversion.convertedRustType) fun pd _ p hr => hr.1.1]
      rw [List.filter_filter]
      rw [length_filter_map] at hcount
      rw [← hcount]
      congr 1
      refine List.filter_congr fun pd hpd => ?_
      cases hdd : pd.dest with
      | true => rw [(hdest pd hpd hdd).2.1]; rfl
      | false => simp
    obtain ⟨p, hp⟩ := List.length_eq_one_iff.1 hlen
    refine ⟨p, hp, ?_⟩
    have hpm : p ∈ u.final.params ∧ p.ty.borrowed = true := by
      have : p ∈ u.final.params.filter (·.ty.borrowed) := by rw [hp]; exact List.mem_singleton.2 rfl
      exact List.mem_filter.1 this
    rcases explicit_lifetime u.hlife with ⟨_, hs⟩ | ⟨_, hno, _⟩ | ⟨_, hgen, hgiven, t2, t2', e1, e2, hg2, _⟩
    · rw [hs] at hpm h2 ⊢
      rw [h1] at h2
      cases h2
      refine ⟨?_, hty0⟩
      obtain ⟨pd, hpd, hr⟩ := hmade.right (u.hperm.subset hpm.1)
      exact hr.2.2.2.1 hpm.2
    · have := hno _ h1
      rw [canCarry_of_borrows hb] at this
      cases this
    · rw [hgen]
      rw [h1] at e1
      cases e1
      rw [h2] at e2
      cases e2
      refine ⟨?_, hg2.1 (canCarry_of_borrows hb)⟩
      obtain ⟨p0, hp0, _, hgp⟩ := hgiven.right hpm.1
      cases hcc : p0.ty.canCarry with
      | true => exact hgp.1 hcc
      | false =>
        have := hgp.2 hcc
        rw [this] at hpm
        rw [borrowed_canCarry hpm.2] at hcc
        cases hcc

/-- **C24 (partial)**, what is still to be made: it is bounded by a lifetime exactly if a parameter is borrowed, or passed by
value, and then all of those are bounded by it too. -/
theorem new_result_partial {env : FnEnv} {s s' : FnState} {name n : ApiName} {f : FuncToConvert}
    {soph : Sophistication} {pre : Option String} {a : FnAnalysis} {nonPod : List QName} {r : FnResult} {it : RsFnItem}
    (hreal : env.Real) (hpl : env.PlainReferences) (htd : NoReferenceTypedef env.conv)
    (h : analyzeForeignFn env s name f soph pre = .done (s', a, n)) (hx : a.ignoreReason = none)
    (hd : Described f a.kind) (hn : NoLifetimes f a.kind)
    (hg : genFunction n.name a nonPod = some r) (hit : it ∈ r.fns) {b : ImplBound} {l : List String}
    (ht : it.sig.ret = some (.impl b l)) :
    (it.sig.generic = true ↔ ∃ p ∈ it.sig.params, p.ty.borrowed = true ∨ p.ty.byValue = true) ∧
      l = (if it.sig.generic = true then ["'a"] else []) ∧
      ∀ p ∈ it.sig.params, p.ty.borrowed = true ∨ p.ty.byValue = true → p.ty.carries = true := by
  obtain ⟨t⟩ := analyze_steps h
  obtain ⟨u⟩ := sig_steps t hx hd hg hit
  have hrp := t.ret_plain hpl htd hn.output
  rw [u.hfinal fun c hc => (hrp c hc).1] at ht ⊢
  obtain ⟨hps, hret⟩ := relifed_sig u.hlife
  rcases hret with ⟨_, h2⟩ | ⟨t0, t1, h1, h2, h3⟩
  · rw [h2] at ht; cases ht
  rw [h2] at ht
  cases ht
  obtain ⟨l0, rfl⟩ : ∃ l0, t0 = .impl b l0 := by cases h3 <;> exact ⟨_, rfl⟩
  obtain ⟨rfl, hnew⟩ := u.himpl _ _ h1
  have hout : f.output.isSome = true ∨ ∃ b q, a.kind = .method (.constructor b) q := by
    rcases hnew with ⟨pd, hpd, hrc⟩ | hk
    · left
      obtain ⟨he, _, _, hbad, _, _⟩ := exposed_parts t hx
      obtain ⟨hm, _⟩ := t.modes he hbad
      rw [t.details_eq] at hpd
      obtain ⟨p, hp, rfl⟩ := List.mem_map.1 hpd
      rcases List.mem_append.1 hp with hp | hp
      · obtain ⟨i, hi, idx, s1, s2, hcv⟩ := hm.all2.right hp
        exact absurd hrc (param_name hcv).2.1
      · exact (t.rest.1 p hp).2.2
    · exact .inr hk
  obtain ⟨hmade, hdest, hnowrap⟩ := t.sig_params hx hreal hpl htd hd hn u hout
  have hback : ∀ p ∈ u.params, p.ty.borrowed = true ∨ p.ty.byValue = true →
      NeedsLifetime a.paramDetails u.params u.ret nonPod a.retConversion := by
    intro p hp hb
    obtain ⟨pd, hpd, hr⟩ := hmade.right (u.hperm.subset hp)
    refine .newOutOfReference h1 (List.mem_filter.1 hpd).1 ?_
    rcases hb with hb | hb
    · exact .inl (hr.1.2 ▸ hb)
    · exact .inr (hr.2.1.1 hb)
  rcases explicit_lifetime u.hlife with ⟨hneed, hs⟩ | ⟨_, hno, _⟩ | ⟨hneed, hgen, hgiven, t2, t2', e1, e2, hg2, _⟩
  · rw [hs] at h2 ⊢
    rw [h1] at h2
    cases h2
    refine ⟨⟨fun h => by (cases h), fun ⟨p, hp, hb⟩ => absurd (hback p hp hb) hneed⟩, rfl,
      fun p hp hb => absurd (hback p hp hb) hneed⟩
  · have := hno _ h1
    cases this
  · rw [h1] at e1
    cases e1
    rw [h2] at e2
    cases e2
    refine ⟨⟨fun _ => ?_, fun _ => hgen⟩, ?_, ?_⟩
    · have fwd : ∀ pd ∈ a.paramDetails, pd.dest = false → (pd.hasLifetime = true ∨
          pd.conversion.rustConversion = .fromValueParamToPtr ∨ pd.selfType.isSome = true) →
          ∃ p ∈ u.final.params, p.ty.borrowed = true ∨ p.ty.byValue = true := by
        intro pd hpd hdd hcase
        obtain ⟨p, hp, hr⟩ := hmade.left (List.mem_filter.2 ⟨hpd, by rw [hdd]; rfl⟩)
        obtain ⟨p', hp', _, hrel⟩ := hps.left (u.hperm.symm.subset hp)
        refine ⟨p', hp', ?_⟩
        rw [hrel.borrowed, hrel.byValue]
        rcases hcase with h | h | h
        · exact .inl (hr.1.2.trans h)
        · exact .inr (hr.2.1.2 h)
        · exact .inl (hr.2.2.2.2 h)
      cases hneed with
      | mutableReceiver hpd hs hdd => exact fwd _ hpd hdd (.inr (.inr (by rw [hs]; rfl)))
      | podOutOfNonPod _ _ _ _ _ hret => rw [h1] at hret; cases hret
      | newOutOfReference hret hpd hcase =>
        rename_i pd
        cases hdd : pd.dest with
        | true =>
          obtain ⟨h1, _, h3⟩ := hdest _ hpd hdd
          rcases hcase with h | h
          · rw [h1] at h; cases h
          · exact absurd h h3
        | false => exact fwd _ hpd hdd (hcase.imp_right .inl)
      | wrappers hw =>
        rcases hw with ⟨c, hc, hw⟩ | ⟨pd, hpd, hw⟩
        · rw [(hrp c hc).1] at hw; cases hw
        · exact absurd hw (hnowrap pd hpd)
    · rw [if_pos hgen]
      have hc := hg2.1 rfl
      cases h3 with
      | same => cases hc
      | impl => rfl
    · intro p hp hb
      obtain ⟨p0, hp0, _, hgp⟩ := hgiven.right hp
      obtain ⟨p1, hp1, hrel⟩ := hps.right hp
      cases hcc : p0.ty.canCarry with
      | true => exact hgp.1 hcc
      | false =>
        have := hgp.2 hcc
        rw [this] at hb
        obtain ⟨pd, hpd, hr⟩ := hmade.right (u.hperm.subset hp0)
        rw [hr.2.2.1 hb] at hcc
        cases hcc

theorem unqualify_carries {t t' : RTy} (h : t.unqualify = some t') : t'.carries = t.carries := by
  cases t with
  | impl b l => cases h; rfl
  | plain t =>
    obtain ⟨t', ht, rfl⟩ := Option.map_eq_some_iff.1 h
    cases t with
    | path segs args =>
      rw [unqualify] at ht
      split at ht
      · cases ht
      · rename_i s hs
        obtain ⟨args', ha, rfl⟩ := Option.map_eq_some_iff.1 ht
        cases args with
        | nil => cases ha; rfl
        | cons x r =>
          rw [unqualifyAll] at ha
          split at ha
          · rename_i x' r' hx hr
            cases ha
            cases x with
            | ref m l e =>
              rw [unqualify] at hx
              obtain ⟨e', _, rfl⟩ := Option.map_eq_some_iff.1 hx
              rw [RTy.carries, RTy.carries, hs]
              rfl
            | path segs' args' =>
              rw [unqualify] at hx
              split at hx
              · cases hx
              · obtain ⟨_, _, rfl⟩ := Option.map_eq_some_iff.1 hx
                rfl
            | ptr m e =>
              rw [unqualify] at hx
              obtain ⟨_, _, rfl⟩ := Option.map_eq_some_iff.1 hx
              rfl
            | array e n => cases hx; rfl
            | other t => cases hx; rfl
          · cases ha
    | ref m l e =>
      rw [unqualify] at ht
      obtain ⟨e', _, rfl⟩ := Option.map_eq_some_iff.1 ht
      rfl
    | ptr m e =>
      rw [unqualify] at ht
      obtain ⟨e', _, rfl⟩ := Option.map_eq_some_iff.1 ht
      rfl
    | array e n => cases ht; rfl
    | other t => cases ht; rfl

/-- **C24 (partial)**, the bridge: a lifetime is written in what a function of the bridge gives back only if it is
declared, and a parameter has it; and if one is declared, what is borrowed and given back has it. -/
theorem bridge_lifetime_partial {env : FnEnv} {s s' : FnState} {name n : ApiName} {f : FuncToConvert}
    {soph : Sophistication} {pre : Option String} {a : FnAnalysis} {nonPod : List QName} {b : BridgeFn}
    (hreal : env.Real) (hpl : env.PlainReferences) (htd : NoReferenceTypedef env.conv)
    (h : analyzeForeignFn env s name f soph pre = .done (s', a, n)) (hx : a.ignoreReason = none)
    (hn : NoLifetimes f a.kind) (hb : bridgeFn n.name a nonPod = some b) {ty : RTy} (ht : b.sig.ret = some ty) :
    (ty.carries = true → b.sig.generic = true ∧ ∃ p ∈ b.sig.params, p.ty.carries = true) ∧
      (b.sig.generic = true → (∃ t, a.retType = some t ∧ borrows t = true) → ty.carries = true) := by
  have hone := fun t => reference_return_partial (t := t) hreal hpl htd h hx
  have hra := bridge_return_agrees h
  obtain ⟨t⟩ := analyze_steps h
  have hrp := t.ret_plain hpl htd hn.output
  rw [bridgeFn] at hb
  obtain ⟨params, hp, hb⟩ := Option.bind_eq_some_iff.1 hb
  obtain ⟨sig, hs, hb⟩ := Option.bind_eq_some_iff.1 hb
  obtain ⟨qs, hq, hb⟩ := Option.bind_eq_some_iff.1 hb
  obtain ⟨ret, hr, rfl⟩ := Option.map_eq_some_iff.1 hb
  dsimp only at ht ⊢
  subst ht
  have hbt := bridgeSigParams_types hp
  have hut := unqualify_types hq
  cases hsr : sig.ret with
  | none => rw [hsr] at hr; cases hr
  | some t1 =>
    rw [hsr] at hr
    obtain ⟨ty', hty', hr⟩ := Option.map_eq_some_iff.1 hr
    cases hr
    have hcar := unqualify_carries hty'
    rw [hcar]
    have hty0 : ∀ ty0, a.retType = some ty0 → (RTy.plain ty0).carries = false ∧
        ((RTy.plain ty0).canCarry = true → borrows ty0 = true) := by
      intro ty0 hrt
      rw [hrt] at hra
      obtain ⟨c, hc, hra⟩ := Option.bind_eq_some_iff.1 hra.symm
      split at hra
      · rename_i hpop
        cases hra
        exact (hrp c hc).2 hpop
      · cases hra
    have key : ∀ x, a.retType.map RTy.plain = some x → ∃ ty0, x = .plain ty0 ∧ a.retType = some ty0 := by
      intro x hx
      obtain ⟨ty0, h1, rfl⟩ := Option.map_eq_some_iff.1 hx
      exact ⟨ty0, rfl, h1⟩
    rcases explicit_lifetime hs with ⟨_, he⟩ | ⟨_, hno, _, he, _⟩ | ⟨_, hgen, hgiven, t2, t2', e1, e2, hg2, _⟩
    · rw [he] at hsr ⊢
      obtain ⟨ty0, rfl, hrt⟩ := key _ hsr
      rw [(hty0 ty0 hrt).1]
      exact ⟨fun h => by (cases h), fun h => by cases h⟩
    · rw [hsr] at he
      obtain ⟨ty0, rfl, hrt⟩ := key _ he.symm
      rw [(hty0 ty0 hrt).1]
      refine ⟨fun h => by (cases h), fun _ ⟨t, h1, h2⟩ => ?_⟩
      rw [hrt] at h1
      cases h1
      have := hno _ he.symm
      rw [canCarry_of_borrows h2] at this
      cases this
    · obtain ⟨ty0, rfl, hrt⟩ := key _ e1
      rw [hsr] at e2
      cases e2
      refine ⟨fun hc => ⟨hgen, ?_⟩, fun _ ⟨t, h1, h2⟩ => ?_⟩
      · have hb : borrows ty0 = true := by
          refine (hty0 ty0 hrt).2 ?_
          cases hcc : (RTy.plain ty0).canCarry with
          | true => rfl
          | false =>
            rw [hg2.2 hcc, (hty0 ty0 hrt).1] at hc
            cases hc
        have hlen := (hone ty0 hrt hb).1
        obtain ⟨x, hx⟩ := List.length_eq_one_iff.1 hlen
        have hxm : x ∈ (a.params.map FnArg.type).filter borrows := by rw [hx]; exact List.mem_singleton.2 rfl
        obtain ⟨hxm, hxb⟩ := List.mem_filter.1 hxm
        obtain ⟨p, hpm, hpt⟩ := hbt.left hxm
        obtain ⟨p', hpm', _, hgp⟩ := hgiven.left hpm
        obtain ⟨q, hqm, hqt⟩ := hut.left hpm'
        refine ⟨q, hqm, ?_⟩
        rw [unqualify_carries hqt]
        refine hgp.1 ?_
        rw [hpt]
        exact canCarry_of_borrows hxb
      · rw [hrt] at h1
        cases h1
        exact hg2.1 (canCarry_of_borrows h2)

end Verif
