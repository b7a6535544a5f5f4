import Verif.FnProps

/-!
# Which functions are offered, with which parameters, and what is unsafe
-/

set_option autoImplicit false

namespace Verif

/-! ### Which functions are offered -/

/-- The class a function is a member of, and whether it is called on an object. -/
def FnKind.member : FnKind → Option (QName × Bool)
  | .function => none
  | .method .static q => some (q, false)
  | .method _ q | .traitMethod _ q _ => some (q, true)

theorem ctorArity_none {n : Nat} : ctorArity n = none ↔ n = 2 := by
  rw [ctorArity]
  split
  · simp; omega
  · split
    · simp; omega
    · simp; omega

theorem kindProblem_none {env : FnEnv} {k : FnKind} (h : kindProblem env k = some none) {q : QName} {o : Bool}
    (hm : k.member = some (q, o)) : q ∉ env.anonymous ∧ q ∉ env.generic := by
  rw [kindProblem.eq_def] at h
  split at h
  · cases hm
  · cases hm
    split at h
    · cases h
    · split at h
      · cases h
      · exact ⟨by assumption, by assumption⟩
  · rename_i mk q'
    have hq : q' = q := by
      cases mk <;> cases hm <;> rfl
    subst hq
    split at h
    · cases h
    · obtain ⟨ok, _, h⟩ := Option.map_eq_some_iff.1 h
      split at h
      · cases h
      · split at h
        · cases h
        · split at h
          · cases h
          · exact ⟨by assumption, by assumption⟩

theorem kindProblem_method {env : FnEnv} {mk : MethodKind} {q : QName}
    (h : kindProblem env (.method mk q) = some none) :
    env.conv.cfg.isOnAllowlist env.hash q.toCppName = some true ∧
      (mk ≠ .static → isCxxAcceptableReceiver q = true) := by
  simp only [kindProblem] at h
  split at h
  · cases h
  · rename_i hr
    obtain ⟨ok, ho, h⟩ := Option.map_eq_some_iff.1 h
    cases ok with
    | false => cases h
    | true =>
      refine ⟨ho, fun hs => ?_⟩
      cases hb : isCxxAcceptableReceiver q with
      | true => rfl
      | false => exact absurd ⟨hs, hb⟩ hr

/-- What must be the case before a function is offered to Rust. -/
structure Offerable (env : FnEnv) (f : FuncToConvert) (a : FnAnalysis) : Prop where
  visible : f.cppVis ≠ .priv
  fixed : f.variadic = false
  assignment : f.specialMember ≠ some .assignmentOperator
  deleted : f.isDeleted ≠ some .deleted
  result : ∀ t, f.output = some t → typeIsReference t true = false
  local_ : ∀ q o, a.kind.member = some (q, o) → q ∉ env.anonymous
  concrete : ∀ q o, a.kind.member = some (q, o) → q ∉ env.generic
  allowed : ∀ mk q, a.kind = .method mk q → env.conv.cfg.isOnAllowlist env.hash q.toCppName = some true
  receiver : ∀ mk q, a.kind = .method mk q → mk ≠ .static → isCxxAcceptableReceiver q = true
  name : validateIdentOkForCxx a.cxxbridgeName = .ok
  copyMove : ∀ k q d, a.kind = .traitMethod k q d → k = .copyConstructor ∨ k = .moveConstructor →
    f.inputs.length = 2

theorem chainProblem_none {env : FnEnv} {f : FuncToConvert} {k : FnKind} {bads : List Err}
    (h : chainProblem env f k bads = some none) :
    bads = [] ∧ f.specialMember ≠ some .assignmentOperator ∧ returnsRvalueRef f.output = false ∧
      f.isDeleted ≠ some .deleted ∧ kindProblem env k = some none := by
  cases bads with
  | cons e l => cases h
  | nil =>
    simp only [chainProblem] at h
    split at h
    · cases h
    · split at h
      · cases h
      · split at h
        · cases h
        · rename_i h1 h2 h3
          exact ⟨rfl, h1, by simpa using h2, h3, h⟩

/-- What became of the steps. -/
theorem FnSteps.kind_eq {env : FnEnv} {s s' : FnState} {name n : ApiName} {f : FuncToConvert} {soph : Sophistication}
    {pre : Option String} {a : FnAnalysis} (t : FnSteps env s name f soph pre s' a n) : a.kind = t.kn.kind := by
  obtain ⟨w, final, np, _, _, hnp, _, _, ha⟩ := finish_inv t.hfin
  exact congrArg FnAnalysis.kind ha

theorem FnSteps.name_eq {env : FnEnv} {s s' : FnState} {name n : ApiName} {f : FuncToConvert} {soph : Sophistication}
    {pre : Option String} {a : FnAnalysis} (t : FnSteps env s name f soph pre s' a n) : a.rustName = t.kn.rustName := by
  obtain ⟨w, final, np, _, _, hnp, _, _, ha⟩ := finish_inv t.hfin
  exact congrArg FnAnalysis.rustName ha

theorem FnSteps.details_eq {env : FnEnv} {s s' : FnState} {name n : ApiName} {f : FuncToConvert} {soph : Sophistication}
    {pre : Option String} {a : FnAnalysis} (t : FnSteps env s name f soph pre s' a n) :
    a.paramDetails = (t.ps' ++ t.ret.placement.toList).map (·.2) := by
  obtain ⟨w, final, np, _, _, hnp, _, _, ha⟩ := finish_inv t.hfin
  exact congrArg FnAnalysis.paramDetails ha

theorem FnSteps.retConversion_eq {env : FnEnv} {s s' : FnState} {name n : ApiName} {f : FuncToConvert}
    {soph : Sophistication} {pre : Option String} {a : FnAnalysis} (t : FnSteps env s name f soph pre s' a n) :
    a.retConversion = t.ret.conversion := by
  obtain ⟨w, final, np, _, _, hnp, _, _, ha⟩ := finish_inv t.hfin
  exact congrArg FnAnalysis.retConversion ha

theorem FnSteps.unsafe_eq {env : FnEnv} {s s' : FnState} {name n : ApiName} {f : FuncToConvert}
    {soph : Sophistication} {pre : Option String} {a : FnAnalysis} (t : FnSteps env s name f soph pre s' a n) :
    a.requiresUnsafe = shouldBeUnsafe env.policy a.paramDetails a.kind := by
  have h1 := t.details_eq
  have h2 := t.kind_eq
  obtain ⟨w, final, np, _, _, hnp, _, _, ha⟩ := finish_inv t.hfin
  rw [h1, h2]
  exact congrArg FnAnalysis.requiresUnsafe ha

theorem FnSteps.deps_eq {env : FnEnv} {s s' : FnState} {name n : ApiName} {f : FuncToConvert}
    {soph : Sophistication} {pre : Option String} {a : FnAnalysis} (t : FnSteps env s name f soph pre s' a n) :
    a.deps = (paramDepsOf t.ps ++ t.ret.deps).foldl setInsert [] := by
  obtain ⟨w, final, np, _, _, hnp, _, _, ha⟩ := finish_inv t.hfin
  exact congrArg FnAnalysis.deps ha

theorem FnSteps.reason_eq {env : FnEnv} {s s' : FnState} {name n : ApiName} {f : FuncToConvert}
    {soph : Sophistication} {pre : Option String} {a : FnAnalysis} (t : FnSteps env s name f soph pre s' a n) :
    ∃ np, (np = none ↔ validateIdentOkForCxx a.cxxbridgeName = .ok) ∧
      (∀ e, np = some e → ∃ x, validateIdentOkForCxx a.cxxbridgeName = .bad x ∧ e = .invalidIdent x) ∧
      a.ignoreReason = (laterErr (laterErr (laterErr (laterErr t.e t.e') t.e'')
        (referenceProblem a.rustName t.ret a.paramDetails)) np).map fun e => ⟨e, some t.kn.ctx⟩ := by
  have h1 := t.details_eq
  have h2 := t.name_eq
  obtain ⟨w, final, np, _, _, hnp, hnp', _, ha⟩ := finish_inv t.hfin
  have h3 : a.cxxbridgeName = final := congrArg FnAnalysis.cxxbridgeName ha
  rw [h1, h2, h3]
  exact ⟨np, hnp, hnp', congrArg FnAnalysis.ignoreReason ha⟩

/-- No problem was found on the way. -/
theorem exposed_parts {env : FnEnv} {s s' : FnState} {name n : ApiName} {f : FuncToConvert} {soph : Sophistication}
    {pre : Option String} {a : FnAnalysis} (t : FnSteps env s name f soph pre s' a n) (h : a.ignoreReason = none) :
    t.e = none ∧ t.e' = none ∧ t.e'' = none ∧ t.bads = [] ∧
      referenceProblem a.rustName t.ret a.paramDetails = none ∧ validateIdentOkForCxx a.cxxbridgeName = .ok := by
  obtain ⟨np, hnp, _, hr⟩ := t.reason_eq
  rw [h] at hr
  obtain ⟨i1, hn⟩ := laterErr_none.1 (Option.map_eq_none_iff.1 hr.symm)
  obtain ⟨i2, hr⟩ := laterErr_none.1 i1
  obtain ⟨i3, h3⟩ := laterErr_none.1 i2
  obtain ⟨h1, h2⟩ := laterErr_none.1 i3
  refine ⟨h1, h2, h3, ?_, hr, hnp.1 hn⟩
  have hs := t.hsig
  rw [h2, signatureProblem] at hs
  obtain ⟨x, hx, hs⟩ := Option.map_eq_some_iff.1 hs
  have hx' := (laterErr_none.1 hs).2
  rw [hx'] at hx
  exact (chainProblem_none hx).1

/-- A function is offered to Rust only if there is nothing against it. -/
theorem exposed_offerable {env : FnEnv} {s s' : FnState} {name n : ApiName} {f : FuncToConvert}
    {soph : Sophistication} {pre : Option String} {a : FnAnalysis}
    (h : analyzeForeignFn env s name f soph pre = .done (s', a, n)) (hx : a.ignoreReason = none) :
    Offerable env f a := by
  obtain ⟨t⟩ := analyze_steps h
  obtain ⟨h1, h2, h3, hb, hr, hn⟩ := exposed_parts t hx
  have hk := t.kind_eq
  have hs := t.hsig
  rw [h2, signatureProblem] at hs
  obtain ⟨x, hx, hs⟩ := Option.map_eq_some_iff.1 hs
  obtain ⟨hs', hx'⟩ := laterErr_none.1 hs
  rw [hx'] at hx
  obtain ⟨hp, hv⟩ := laterErr_none.1 hs'
  obtain ⟨_, c1, c2, c3, c4⟩ := chainProblem_none hx
  rw [← hk] at c4
  have hlen := t.hparams.length
  rw [hb] at hlen
  refine ⟨?_, ?_, c1, c3, ?_, ?_, ?_, ?_, ?_, hn, ?_⟩
  · intro e; rw [if_pos e] at hp; cases hp
  · cases hvv : f.variadic with
    | false => rfl
    | true => rw [hvv] at hv; cases hv
  · intro ty e
    rw [e] at c2
    exact c2
  · intro q o hm; exact (kindProblem_none c4 hm).1
  · intro q o hm; exact (kindProblem_none c4 hm).2
  · intro mk q e; rw [e] at c4; exact (kindProblem_method c4).1
  · intro mk q e; rw [e] at c4; exact (kindProblem_method c4).2
  · intro k q d e hkk
    have hre := t.hre
    rw [← hk, e, h1] at hre
    rcases hkk with rfl | rfl
    · simp only [reanalyzeParams] at hre
      obtain ⟨⟨s1, ps1, e1⟩, _, hre⟩ := PassRun.bind_done.1 hre
      simp only [PassRun.done.injEq, Prod.mk.injEq] at hre
      have := ctorArity_none.1 (laterErr_none.1 hre.2.2).1
      simpa [this] using hlen.symm
    · simp only [reanalyzeParams] at hre
      obtain ⟨⟨s1, ps1, e1⟩, _, hre⟩ := PassRun.bind_done.1 hre
      obtain ⟨⟨s2, ps2, e2⟩, _, hre⟩ := PassRun.bind_done.1 hre
      simp only [PassRun.done.injEq, Prod.mk.injEq] at hre
      have := ctorArity_none.1 (laterErr_none.1 (laterErr_none.1 hre.2.2).1).1
      simpa [this] using hlen.symm

/-! ### The reasons given are true -/

/-- The type of the result is a reference, or one to something mutable. -/
def ReturnsRef (env : FnEnv) (ns : List String) (f : FuncToConvert) (mustBeMutable : Bool) : Prop :=
  ∃ ty st st' a, f.output = some ty ∧ convertType env.conv ns env.fuel .outerType st ty = (st', .ok a) ∧
    (a.kind = .mutableReference ∨ (mustBeMutable = false ∧ a.kind = .reference))

/-- The reason is true of the function. The errors met while converting a parameter or the result are those which the
type converter or the check of the name gave. -/
inductive TrueReason (env : FnEnv) (name : ApiName) (f : FuncToConvert) (a : FnAnalysis) : Err → Prop
  | private_ (h : f.cppVis = .priv) : TrueReason env name f a .privateMethod
  | variadic (h : f.variadic = true) : TrueReason env name f a .variadic
  | assignment (h : f.specialMember = some .assignmentOperator) : TrueReason env name f a .assignmentOperator
  | deleted (h : f.isDeleted = some .deleted) : TrueReason env name f a .deleted
  | rvalue {t : Ty} (h : f.output = some t) (hr : typeIsReference t true = true) : TrueReason env name f a .rvalueReturn
  | receiver {mk : MethodKind} {q : QName} (h : a.kind = .method mk q) (hr : isCxxAcceptableReceiver q = false) :
      TrueReason env name f a .unsupportedReceiver
  | notAllowed {mk : MethodKind} {q : QName} (h : a.kind = .method mk q)
      (hr : env.conv.cfg.isOnAllowlist env.hash q.toCppName = some false) :
      TrueReason env name f a .methodOfNonAllowlistedType
  | local_ {q : QName} {o : Bool} (h : a.kind.member = some (q, o)) (hr : q ∈ env.anonymous) :
      TrueReason env name f a .methodInAnonymousNamespace
  | generic {q : QName} {o : Bool} (h : a.kind.member = some (q, o)) (hr : q ∈ env.generic) :
      TrueReason env name f a .methodOfGenericType
  | argument {i : FnArg} {s s' : FnState} {diag : QName} {m : ArgMode} {e : Err} (hi : i ∈ f.inputs)
      (h : convertFnArg env s name.name.ns diag m i = .done (s', .error e)) :
      TrueReason env name f a (.argument (describeArg i) e)
  | special {i : FnArg} {s s' : FnState} {diag : QName} {m : ArgMode} {e : Err} (hi : i ∈ f.inputs)
      (h : convertFnArg env s name.name.ns diag m i = .done (s', .error e)) : TrueReason env name f a e
  | fewParams {k : TraitMethodKind} {q : QName} {d : TraitMethodDetails} (h : a.kind = .traitMethod k q d)
      (hk : k = .copyConstructor ∨ k = .moveConstructor) (hl : f.inputs.length < 2) :
      TrueReason env name f a .constructorWithOnlyOneParam
  | manyParams {k : TraitMethodKind} {q : QName} {d : TraitMethodDetails} (h : a.kind = .traitMethod k q d)
      (hk : k = .copyConstructor ∨ k = .moveConstructor) (hl : f.inputs.length > 2) :
      TrueReason env name f a .constructorWithMultipleParams
  | result {s s' : FnState} {diag : QName} {soph : Sophistication} {e : Err}
      (h : convertReturn env s name.name.ns diag soph f.output = .done (s', .error e)) : TrueReason env name f a e
  | noReference (hr : ReturnsRef env name.name.ns f false) (h : ∀ p ∈ a.paramDetails, p.hasLifetime = false) :
      TrueReason env name f a (.noInputReference a.rustName)
  | references (hr : ReturnsRef env name.name.ns f false)
      (h : (a.paramDetails.filter fun p => p.hasLifetime).length > 1) :
      TrueReason env name f a (.multipleInputReferences a.rustName)
  | noMutReference (hr : ReturnsRef env name.name.ns f true)
      (h : ∀ p ∈ a.paramDetails, p.hasLifetime = true → p.isMutableReference = false) :
      TrueReason env name f a (.noMutableInputReference a.rustName)
  | mutReferences (hr : ReturnsRef env name.name.ns f true)
      (h : (a.paramDetails.filter fun p => p.hasLifetime && p.isMutableReference).length > 1) :
      TrueReason env name f a (.multipleMutableInputReferences a.rustName)
  | name {e : InvalidIdentError} (h : validateIdentOkForCxx a.cxxbridgeName = .bad e) : TrueReason env name f a (.invalidIdent e)

theorem laterErr_some {a b : Option Err} {e : Err} (h : laterErr a b = some e) :
    b = some e ∨ (b = none ∧ a = some e) := by
  cases a <;> cases b <;> simp [laterErr] at h <;> simp [h]

theorem ParamFates.errors {env : FnEnv} {ns : List String} {diag : QName} {m : ArgMode} {s s' : FnState}
    {l : List FnArg} {ps : List (FnArg × ArgumentAnalysis)} {es : List Err}
    (h : ParamFates env ns diag m s l s' ps es) : ∀ e ∈ es, ∃ i ∈ l, ∃ s1 s2 e', e = .argument (describeArg i) e' ∧
      convertFnArg env s1 ns diag m i = .done (s2, .error e') := by
  induction h with
  | nil => intro e he; cases he
  | good _ _ ih =>
    intro e he
    obtain ⟨i, hi, r⟩ := ih e he
    exact ⟨i, List.mem_cons_of_mem _ hi, r⟩
  | bad h1 _ ih =>
    intro e he
    rcases List.mem_cons.1 he with rfl | he
    · exact ⟨_, List.mem_cons_self, _, _, _, rfl, h1⟩
    · obtain ⟨i, hi, r⟩ := ih e he
      exact ⟨i, List.mem_cons_of_mem _ hi, r⟩

theorem kindProblem_true {env : FnEnv} {name : ApiName} {f : FuncToConvert} {a : FnAnalysis} {e : Err}
    (h : kindProblem env a.kind = some (some e)) : TrueReason env name f a e := by
  rw [kindProblem.eq_def] at h
  split at h
  · cases h
  · rename_i k q d hk
    have hm : a.kind.member = some (q, true) := by rw [hk]; rfl
    split at h
    · cases h; exact .local_ hm (by assumption)
    · split at h
      · cases h; exact .generic hm (by assumption)
      · cases h
  · rename_i k q hk
    obtain ⟨o, hm⟩ : ∃ o, a.kind.member = some (q, o) := by rw [hk]; cases k <;> exact ⟨_, rfl⟩
    split at h
    · rename_i hr
      cases h
      exact .receiver hk hr.2
    · obtain ⟨ok, ho, h⟩ := Option.map_eq_some_iff.1 h
      cases ok with
      | false => cases h; exact .notAllowed hk ho
      | true =>
        simp only [Bool.not_true, Bool.false_eq_true, if_false] at h
        split at h
        · cases h; exact .local_ hm (by assumption)
        · split at h
          · cases h; exact .generic hm (by assumption)
          · cases h

/-- The problems found before the result is looked at are real; if a parameter could not be converted, there is
one. -/
theorem signature_true {env : FnEnv} {name : ApiName} {f : FuncToConvert} {a : FnAnalysis} {bads : List Err}
    {r : Option Err} (h : signatureProblem env f a.kind bads = some r)
    (hb : ∀ e ∈ bads, TrueReason env name f a e) :
    (∀ e, r = some e → TrueReason env name f a e) ∧ (r = none → bads = []) := by
  rw [signatureProblem] at h
  obtain ⟨x, hx, h⟩ := Option.map_eq_some_iff.1 h
  refine ⟨fun e he => ?_, fun he => ?_⟩
  · rw [he] at h
    rcases laterErr_some h with h1 | ⟨_, h1⟩
    · rw [h1] at hx
      rw [chainProblem.eq_def] at hx
      split at hx
      · cases hx; exact hb _ List.mem_cons_self
      · split at hx
        · cases hx; exact .assignment (by assumption)
        · split at hx
          · rename_i hr
            cases hx
            cases ho : f.output with
            | none => rw [ho] at hr; cases hr
            | some t => rw [ho] at hr; exact .rvalue ho hr
          · split at hx
            · cases hx; exact .deleted (by assumption)
            · exact kindProblem_true hx
    · rcases laterErr_some h1 with h2 | ⟨_, h2⟩
      · split at h2
        · cases h2; exact .variadic (by assumption)
        · cases h2
      · split at h2
        · cases h2; exact .private_ (by assumption)
        · cases h2
  · rw [he] at h
    have h1 := (laterErr_none.1 h).2
    rw [h1] at hx
    exact (chainProblem_none hx).1

theorem reanalyze_true {env : FnEnv} {name : ApiName} {f : FuncToConvert} {a : FnAnalysis} {s s' : FnState}
    {diag : QName} {m : ArgMode} {idx : Nat} {ps ps' : List (FnArg × ArgumentAnalysis)} {e : Err}
    (h : reanalyze env s name.name.ns diag f.inputs m idx ps = .done (s', ps', some e)) : TrueReason env name f a e := by
  obtain ⟨i, hi, ⟨_, _, _, _, he⟩ | ⟨x, hx, _, he⟩⟩ := reanalyze_done h
  · cases he
  · cases he
    exact .special (List.mem_of_getElem? hi) hx

theorem arity_true {env : FnEnv} {name : ApiName} {f : FuncToConvert} {a : FnAnalysis} {k : TraitMethodKind} {q : QName}
    {d : TraitMethodDetails} (hk : a.kind = .traitMethod k q d) (hc : k = .copyConstructor ∨ k = .moveConstructor)
    {e : Err} (h : ctorArity f.inputs.length = some e) : TrueReason env name f a e := by
  rw [ctorArity] at h
  split at h
  · cases h; exact .fewParams hk hc (by assumption)
  · split at h
    · cases h; exact .manyParams hk hc (by assumption)
    · cases h

theorem reanalyzeParams_true {env : FnEnv} {name : ApiName} {f : FuncToConvert} {a : FnAnalysis} {s s' : FnState}
    {diag : QName} {soph : Sophistication} {ps ps' : List (FnArg × ArgumentAnalysis)} {e : Err}
    (h : reanalyzeParams env s name.name.ns diag f soph a.kind ps = .done (s', ps', some e))
    (hl : ps.length = f.inputs.length) : TrueReason env name f a e := by
  rw [reanalyzeParams.eq_def] at h
  dsimp only at h
  split at h
  · exact reanalyze_true h
  · exact reanalyze_true h
  · rename_i q d hk
    obtain ⟨⟨s1, ps1, e1⟩, h1, h⟩ := PassRun.bind_done.1 h
    simp only [PassRun.done.injEq, Prod.mk.injEq] at h
    rcases laterErr_some h.2.2 with h2 | ⟨_, h2⟩
    · rw [h2] at h1; exact reanalyze_true h1
    · rw [hl] at h2; exact arity_true hk (.inl rfl) h2
  · rename_i q d hk
    obtain ⟨⟨s1, ps1, e1⟩, h1, h⟩ := PassRun.bind_done.1 h
    obtain ⟨⟨s2, ps2, e2⟩, h2, h⟩ := PassRun.bind_done.1 h
    simp only [PassRun.done.injEq, Prod.mk.injEq] at h
    rcases laterErr_some h.2.2 with h3 | ⟨_, h3⟩
    · rw [h3] at h2; exact reanalyze_true h2
    · rcases laterErr_some h3 with h4 | ⟨_, h4⟩
      · rw [h4] at h1; exact reanalyze_true h1
      · rw [hl] at h4; exact arity_true hk (.inr rfl) h4
  · cases h

theorem ReturnFate.refs {env : FnEnv} {s s' : FnState} {ns : List String} {diag : QName}
    {soph : Sophistication} {f : FuncToConvert} {r : ReturnAnalysis} (h : ReturnFate env s ns diag soph f.output s' r) :
    (r.wasReference = true → ReturnsRef env ns f false) ∧ (r.wasMutableReference = true → ReturnsRef env ns f true) := by
  generalize ho : f.output = out at h
  cases h with
  | nothing => exact ⟨(fun h => by cases h), (fun h => by cases h)⟩
  | plain h1 hp hr =>
    obtain ⟨st, hc, _⟩ := convertBoxed_ok h1
    obtain ⟨c, _, rfl⟩ := Option.map_eq_some_iff.1 hr
    refine ⟨fun h => ⟨_, _, _, _, ho, hc, ?_⟩, fun h => ⟨_, _, _, _, ho, hc, ?_⟩⟩
    · rcases of_decide_eq_true h with h | h
      · exact .inl h
      · exact .inr ⟨rfl, h⟩
    · exact .inl (of_decide_eq_true h)
  | value h1 ht hq hp hr =>
    rcases valueReturn_ok hr with ⟨p, _, _, h2, rfl⟩ | ⟨_, _, rfl⟩
    · exact ⟨(fun h => by cases h), (fun h => by cases h)⟩
    · exact ⟨(fun h => by cases h), (fun h => by cases h)⟩

theorem FnSteps.refs {env : FnEnv} {s s' : FnState} {name n : ApiName} {f : FuncToConvert} {soph : Sophistication}
    {pre : Option String} {a : FnAnalysis} (t : FnSteps env s name f soph pre s' a n) :
    (t.ret.wasReference = true → ReturnsRef env name.name.ns f false) ∧
      (t.ret.wasMutableReference = true → ReturnsRef env name.name.ns f true) := by
  rcases t.hret with ⟨hr, _⟩ | ⟨e, _, hr, _⟩
  · exact (convertReturn_ok hr).refs
  · rw [hr]; exact ⟨(fun h => by cases h), (fun h => by cases h)⟩

theorem reference_true {env : FnEnv} {name : ApiName} {f : FuncToConvert} {a : FnAnalysis} {r : ReturnAnalysis} {e : Err}
    (hrefs : (r.wasReference = true → ReturnsRef env name.name.ns f false) ∧
      (r.wasMutableReference = true → ReturnsRef env name.name.ns f true))
    (h : referenceProblem a.rustName r a.paramDetails = some e) : TrueReason env name f a e := by
  rw [referenceProblem] at h
  rcases laterErr_some h with h | ⟨_, h⟩
  · split at h
    · rename_i hm
      split at h
      · rename_i h0
        cases h
        refine .noMutReference (hrefs.2 hm) fun p hp hl => ?_
        have := List.eq_nil_of_length_eq_zero h0
        have := List.filter_eq_nil_iff.1 this p hp
        simpa [hl] using this
      · split at h
        · cases h; exact .mutReferences (hrefs.2 hm) (by assumption)
        · cases h
    · cases h
  · split at h
    · rename_i hm
      split at h
      · rename_i h0
        cases h
        refine .noReference (hrefs.1 hm) fun p hp => ?_
        have := List.eq_nil_of_length_eq_zero h0
        have := List.filter_eq_nil_iff.1 this p hp
        simpa using this
      · split at h
        · cases h; exact .references (hrefs.1 hm) (by assumption)
        · cases h
    · cases h

/-- C62: if a function is not offered, the reason given is true of it. -/
theorem reason_true {env : FnEnv} {s s' : FnState} {name n : ApiName} {f : FuncToConvert} {soph : Sophistication}
    {pre : Option String} {a : FnAnalysis} (h : analyzeForeignFn env s name f soph pre = .done (s', a, n))
    {c : ErrWithCtx} (hc : a.ignoreReason = some c) : TrueReason env name f a c.err := by
  obtain ⟨t⟩ := analyze_steps h
  obtain ⟨np, _, hnp, hr⟩ := t.reason_eq
  rw [hc] at hr
  obtain ⟨e, he, rfl⟩ := Option.map_eq_some_iff.1 hr.symm
  show TrueReason env name f a e
  have hbads : ∀ e ∈ t.bads, TrueReason env name f a e := fun e he => by
    obtain ⟨i, hi, s1, s2, e', rfl, hx⟩ := t.hparams.errors e he
    exact .argument hi hx
  have hs := t.hsig
  rw [← t.kind_eq] at hs
  obtain ⟨hsig, hnil⟩ := signature_true hs hbads
  rcases laterErr_some he with h1 | ⟨_, h1⟩
  · obtain ⟨x, hx, rfl⟩ := hnp _ h1
    exact .name hx
  · rcases laterErr_some h1 with h2 | ⟨_, h2⟩
    · exact reference_true t.refs h2
    · rcases laterErr_some h2 with h3 | ⟨_, h3⟩
      · rcases t.hret with ⟨_, hn⟩ | ⟨x, hx, _, hn⟩
        · rw [hn] at h3; cases h3
        · rw [hn] at h3; cases h3; exact .result hx
      · rcases laterErr_some h3 with h4 | ⟨h4, h5⟩
        · exact hsig _ h4
        · have hre := t.hre
          rw [h5, ← t.kind_eq] at hre
          refine reanalyzeParams_true hre ?_
          have := t.hparams.length
          rw [hnil h4] at this
          simpa using this

end Verif
