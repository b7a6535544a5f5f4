import Verif.FnInv

/-!
# What the analysis of a function guarantees
-/

set_option autoImplicit false

namespace Verif

/-! ### The end of the analysis -/

theorem finish_inv {env : FnEnv} {name n : ApiName} {f : FuncToConvert} {kn : KindAndName}
    {ps : List (FnArg × ArgumentAnalysis)} {deps : List QName} {r : ReturnAnalysis} {bn : String} {ign : Option Err}
    {bad : Bool} {a : FnAnalysis} (h : finishAnalysis env name f kn ps deps r bn ign bad = some (a, n)) :
    ∃ wrap final np,
      wrap = wrapperNeeded env f kn.kind bn kn.rustName ((ps ++ r.placement.toList).map (·.2)) r.conversion bad ∧
      final = (if wrap then wrapperName env bn else bn) ∧
      (np = none ↔ validateIdentOkForCxx final = .ok) ∧
      (∀ e, np = some e → ∃ x, validateIdentOkForCxx final = .bad x ∧ e = .invalidIdent x) ∧
      n = ⟨⟨name.name.ns, final⟩, name.cppName⟩ ∧
      a =
        { cxxbridgeName := final
          rustName := kn.rustName
          cppCallName := match name.cppName with
            | some n => some n
            | none => if bn ≠ kn.rustName then some kn.rustName else none
          params := if wrap then ((ps ++ r.placement.toList).map (·.2)).map bridgeParam
            else (ps ++ r.placement.toList).map (·.1)
          kind := kn.kind
          retType := if wrap then bridgeReturn r else r.rt
          paramDetails := (ps ++ r.placement.toList).map (·.2)
          retConversion := r.conversion
          requiresUnsafe := shouldBeUnsafe env.policy ((ps ++ r.placement.toList).map (·.2)) kn.kind
          cppWrapper := if wrap then
              some { payload := (wrapperPayload name.name.ns f kn.kind (name.cppName.getD kn.rustName)).1
                     wrapperFunctionName := final
                     originalCppName := name.cppName.getD final
                     returnConversion := r.conversion
                     argumentConversion := ((ps ++ r.placement.toList).map (·.2)).map (·.conversion)
                     kind := (wrapperPayload name.name.ns f kn.kind (name.cppName.getD kn.rustName)).2
                     passObsField := false
                     qualification := none }
            else none
          deps := (deps ++ r.deps).foldl setInsert []
          ignoreReason := (laterErr (laterErr ign
            (referenceProblem kn.rustName r ((ps ++ r.placement.toList).map (·.2)))) np).map fun e => ⟨e, some kn.ctx⟩
          externallyCallable := f.cppVis = .pub
          rustWrapperNeeded := rustWrapperNeeded env kn.kind final kn.rustName ((ps ++ r.placement.toList).map (·.2))
            r.conversion
          renameStrategy := renameStrategy kn.kind final kn.rustName
            (rustWrapperNeeded env kn.kind final kn.rustName ((ps ++ r.placement.toList).map (·.2)) r.conversion) } := by
  rw [finishAnalysis] at h
  dsimp only at h
  split at h
  · cases h
  · rename_i e hv
    cases h
    exact ⟨_, _, some (.invalidIdent e), rfl, rfl, by rw [hv]; simp, (fun x hx => by cases hx; exact ⟨e, hv, rfl⟩), rfl, rfl⟩
  · rename_i hv
    cases h
    exact ⟨_, _, none, rfl, rfl, by rw [hv]; simp, (fun x hx => by cases hx), rfl, rfl⟩

/-! ### Names -/

/-- A function keeps its namespace and its C++ name; in the bridge it has the name under which it is listed. -/
theorem name_kept {env : FnEnv} {s s' : FnState} {name n : ApiName} {f : FuncToConvert} {soph : Sophistication}
    {pre : Option String} {a : FnAnalysis} (h : analyzeForeignFn env s name f soph pre = .done (s', a, n)) :
    n.name = ⟨name.name.ns, a.cxxbridgeName⟩ ∧ n.cppName = name.cppName := by
  obtain ⟨t⟩ := analyze_steps h
  obtain ⟨_, _, _, _, _, _, _, hn, ha⟩ := finish_inv t.hfin
  rw [hn, ha]
  exact ⟨rfl, rfl⟩

/-- The name Rust code has for a function, going by the strategy chosen for renaming. `none` is for a function whose
name is that of a wrapper made in Rust. -/
def FnAnalysis.visibleName (a : FnAnalysis) : Option String :=
  match a.renameStrategy with
  | .none => some a.cxxbridgeName
  | .renameInOutputMod n => some n
  | .renameUsingWrapperFunction => none

/-- When a wrapper is made in Rust: if a parameter or the result needs work in Rust, for every method of a trait, for a
method which has another name in the bridge, and for every function if wrappers are forced. -/
theorem rustWrapperNeeded_iff {env : FnEnv} {kind : FnKind} {bn rn : String} {ps : List ArgumentAnalysis}
    {ret : Option TypeConversionPolicy} : rustWrapperNeeded env kind bn rn ps ret = true ↔
      (∃ p ∈ ps, p.conversion.rustConversion ≠ .none) ∨ (∃ c, ret = some c ∧ c.rustConversion ≠ .none) ∨
      (∃ k q d, kind = .traitMethod k q d) ∨ (bn ≠ rn ∧ ∃ k q, kind = .method k q) ∨
      (kind = .function ∧ env.forceWrappers = true) := by
  rw [rustWrapperNeeded.eq_def]
  cases ret <;> cases kind <;> simp [TypeConversionPolicy.rustWorkNeeded, or_assoc]

/-- However a function is renamed, Rust code sees it as `rustName`: either a wrapper is made in Rust, or the name in
the bridge is the right one, or there is a `use … as`. -/
theorem visible_name {env : FnEnv} {s s' : FnState} {name n : ApiName} {f : FuncToConvert} {soph : Sophistication}
    {pre : Option String} {a : FnAnalysis} (h : analyzeForeignFn env s name f soph pre = .done (s', a, n)) :
    (a.visibleName = some a.rustName ∧ a.rustWrapperNeeded = false) ∨
      (a.visibleName = none ∧ a.rustWrapperNeeded = true) := by
  obtain ⟨t⟩ := analyze_steps h
  obtain ⟨w, final, _, _, _, _, _, _, ha⟩ := finish_inv t.hfin
  rw [ha]
  simp only [FnAnalysis.visibleName]
  cases hr : rustWrapperNeeded env t.kn.kind final t.kn.rustName ((t.ps' ++ t.ret.placement.toList).map (·.2))
      t.ret.conversion with
  | true => right; simp [renameStrategy]
  | false =>
    left
    have hr' := mt rustWrapperNeeded_iff.2 (by rw [hr]; decide)
    cases hk : t.kn.kind with
    | function =>
      simp only [renameStrategy]
      by_cases hn : final = t.kn.rustName <;> simp [hn]
    | method k q =>
      have hn : final = t.kn.rustName := by
        by_contra hn
        exact hr' (.inr (.inr (.inr (.inl ⟨hn, k, q, hk⟩))))
      simp [renameStrategy, hn]
    | traitMethod k q d => exact absurd (.inr (.inr (.inl ⟨k, q, d, hk⟩))) hr'

/-- The C++ function a binding ends up calling: the one named in the C++ wrapper if there is one, else the one `cxx`
is told of. -/
def FnAnalysis.calledName (a : FnAnalysis) : Option String :=
  match a.cppWrapper with
  | some w =>
    match w.payload with
    | .functionCall _ n | .staticMethodCall _ _ n => some n
    | _ => none
  | none => some (a.cppCallName.getD a.cxxbridgeName)

/-- A binding which calls a C++ function by name calls the one it stands for: the one bindgen gave as its C++ name. If
bindgen gave none, it calls the one which has the name the Rust function was given. -/
theorem called_name {env : FnEnv} {s s' : FnState} {name n : ApiName} {f : FuncToConvert} {soph : Sophistication}
    {pre : Option String} {a : FnAnalysis} (h : analyzeForeignFn env s name f soph pre = .done (s', a, n))
    (hs : f.syntheticCpp = none) {c : String} (hc : a.calledName = some c) :
    c = name.cppName.getD a.rustName := by
  obtain ⟨t⟩ := analyze_steps h
  obtain ⟨w, final, _, hw, hf, _, _, _, ha⟩ := finish_inv t.hfin
  rw [ha] at hc ⊢
  cases w with
  | true =>
    simp only [FnAnalysis.calledName, if_true, wrapperPayload, hs] at hc
    split at hc <;> rename_i hp <;> split at hp <;> first | (cases hp; cases hc; rfl) | cases hp | cases hc
  | false =>
    simp only [Bool.false_eq_true, if_false] at hf
    simp only [FnAnalysis.calledName, Bool.false_eq_true, if_false] at hc
    cases hn : name.cppName with
    | some x => rw [hn] at hc; cases hc; rfl
    | none =>
      rw [hn] at hc
      by_cases hb : t.bridgeName = t.kn.rustName
      · simp only [hb, ne_eq, not_true_eq_false, if_false, Option.getD_none, Option.some.injEq] at hc
        rw [← hc, hf]
        simpa using hb
      · simp only [ne_eq, hb, not_false_eq_true, if_true, Option.getD_some, Option.some.injEq] at hc
        rw [← hc]; rfl

/-! ### C25: both sides agree on the signature -/

theorem argConversion_plain {env : FnEnv} {m : ArgMode} {a : Annotated Ty} {self pl : Bool}
    {conv : TypeConversionPolicy} (h : argConversion env m a self pl = some conv) (hc : conv.cppConversion = .none) :
    conv.unwrappedType = a.ty := by
  rw [argConversion] at h
  split at h
  · rename_i holder hk
    obtain ⟨x, _, rfl⟩ := Option.map_eq_some_iff.1 h
    cases hc
  · split at h
    · cases h; cases hc
    · split at h
      · rename_i segs args ht
        rw [ht]
        rw [pathConversion] at h
        split at h
        · cases h
        · split at h
          · obtain ⟨x, _, rfl⟩ := Option.map_eq_some_iff.1 h
            cases hc
          · split at h
            · split at h <;> cases h
              · cases hc
              · rfl
            · split at h
              · cases h; cases hc
              · split at h <;> cases h <;> cases hc
      · rename_i mu e ht
        rw [ht]
        split at h
        · cases h; cases hc
        · split at h
          · cases h; cases hc
          · split at h <;> cases h
            · cases hc
            · rfl
      · rename_i mu l e ht
        rw [ht]
        split at h
        · split at h <;> cases h; cases hc
        · cases h; rfl
      · cases h; rfl

/-- The type of a parameter. -/
def FnArg.type : FnArg → Ty
  | .typed _ t => t
  | .receiver t => t

theorem convertFnArg_plain {env : FnEnv} {s s' : FnState} {ns : List String} {diag : QName} {m : ArgMode} {i : FnArg}
    {p : FnArg × ArgumentAnalysis} (h : convertFnArg env s ns diag m i = .done (s', .ok p))
    (hc : p.2.conversion.cppWorkNeeded = false) : p.1.type = p.2.conversion.convertedRustType := by
  obtain ⟨nm, ty, self, into, _, h⟩ := convertFnArg_ok h
  obtain ⟨st, a, conv, _, _, h3, rfl⟩ := convertNamedArg_ok h
  have hn : conv.cppConversion = .none := by
    by_contra hn
    simp [TypeConversionPolicy.cppWorkNeeded, recordedArg, hn] at hc
  have := argConversion_plain h3 hn
  show a.ty = conv.convertedRustType
  rw [TypeConversionPolicy.convertedRustType, hn]
  exact this.symm

/-- Where a pair of parameter and analysis comes from. -/
def FromConversion (env : FnEnv) (ns : List String) (diag : QName) (p : FnArg × ArgumentAnalysis) : Prop :=
  ∃ s s' m i, convertFnArg env s ns diag m i = .done (s', .ok p)

theorem ParamFates.from {env : FnEnv} {ns : List String} {diag : QName} {m : ArgMode} {s s' : FnState}
    {l : List FnArg} {ps : List (FnArg × ArgumentAnalysis)} {es : List Err}
    (h : ParamFates env ns diag m s l s' ps es) : ∀ p ∈ ps, FromConversion env ns diag p := by
  induction h with
  | nil => intro p hp; cases hp
  | good h _ ih =>
    intro p hp
    rcases List.mem_cons.1 hp with rfl | hp
    · exact ⟨_, _, _, _, h⟩
    · exact ih p hp
  | bad _ _ ih => exact ih

/-- One parameter, or none, was converted again. -/
theorem reanalyze_done {env : FnEnv} {s s' : FnState} {ns : List String} {diag : QName} {inputs : List FnArg}
    {m : ArgMode} {idx : Nat} {ps ps' : List (FnArg × ArgumentAnalysis)} {e : Option Err}
    (h : reanalyze env s ns diag inputs m idx ps = .done (s', ps', e)) :
    ∃ i, inputs[idx]? = some i ∧
      ((∃ p, convertFnArg env s ns diag m i = .done (s', .ok p) ∧ idx < ps.length ∧ ps' = ps.set idx p ∧ e = none) ∨
        ∃ x, convertFnArg env s ns diag m i = .done (s', .error x) ∧ ps' = ps ∧ e = some x) := by
  rw [reanalyze] at h
  cases hi : inputs[idx]? with
  | none => rw [hi] at h; cases h
  | some i =>
    rw [hi] at h
    refine ⟨i, rfl, ?_⟩
    obtain ⟨⟨s1, r⟩, h1, h⟩ := PassRun.bind_done.1 h
    cases r with
    | error x => cases h; exact .inr ⟨x, h1, rfl, rfl⟩
    | ok p =>
      dsimp only at h
      split at h
      · rename_i hl
        cases h
        exact .inl ⟨p, h1, hl, rfl, rfl⟩
      · cases h

theorem reanalyze_from {env : FnEnv} {s s' : FnState} {ns : List String} {diag : QName} {inputs : List FnArg}
    {m : ArgMode} {idx : Nat} {ps ps' : List (FnArg × ArgumentAnalysis)} {e : Option Err}
    (h : reanalyze env s ns diag inputs m idx ps = .done (s', ps', e)) (hf : ∀ p ∈ ps, FromConversion env ns diag p) :
    (∀ p ∈ ps', FromConversion env ns diag p) ∧ ps'.length = ps.length := by
  obtain ⟨i, _, ⟨p, h1, _, rfl, _⟩ | ⟨x, _, rfl, _⟩⟩ := reanalyze_done h
  · refine ⟨fun q hq => ?_, by simp⟩
    rcases List.mem_or_eq_of_mem_set hq with hq | rfl
    · exact hf q hq
    · exact ⟨_, _, _, _, h1⟩
  · exact ⟨hf, rfl⟩

theorem reanalyzeParams_from {env : FnEnv} {s s' : FnState} {ns : List String} {diag : QName} {f : FuncToConvert}
    {soph : Sophistication} {kind : FnKind} {ps ps' : List (FnArg × ArgumentAnalysis)} {e : Option Err}
    (h : reanalyzeParams env s ns diag f soph kind ps = .done (s', ps', e))
    (hf : ∀ p ∈ ps, FromConversion env ns diag p) :
    (∀ p ∈ ps', FromConversion env ns diag p) ∧ ps'.length = ps.length := by
  rw [reanalyzeParams.eq_def] at h
  dsimp only at h
  split at h
  · exact reanalyze_from h hf
  · exact reanalyze_from h hf
  · obtain ⟨⟨s1, ps1, e1⟩, h1, h⟩ := PassRun.bind_done.1 h
    cases h
    exact reanalyze_from h1 hf
  · obtain ⟨⟨s1, ps1, e1⟩, h1, h⟩ := PassRun.bind_done.1 h
    obtain ⟨⟨s2, ps2, e2⟩, h2, h⟩ := PassRun.bind_done.1 h
    cases h
    obtain ⟨a1, a2⟩ := reanalyze_from h1 hf
    obtain ⟨b1, b2⟩ := reanalyze_from h2 a1
    exact ⟨b1, b2.trans a2⟩
  · cases h; exact ⟨hf, rfl⟩

theorem valueReturn_ok {env : FnEnv} {s s' : FnState} {ns : List String} {diag tn : QName} {soph : Sophistication}
    {a : Annotated Ty} {r : ReturnAnalysis} (h : valueReturn env s ns diag soph tn a = .done (s', .ok r)) :
    (∃ p, tn ∈ env.moveitSafe ∧ soph = .regular ∧ convertFnArg env s ns diag
        { thisAsReference := false, force := some .fromPlacementParamToNewReturn }
        (.typed "placement_return_type" (.ptr true a.ty)) = .done (s', .ok p) ∧
      r = { conversion := some (.newForPlacementReturn a.ty), deps := a.deps, placement := some p }) ∨
    (¬ (tn ∈ env.moveitSafe ∧ soph = .regular) ∧ s' = s ∧
      r = { rt := some a.ty, conversion := some (.newToUniquePtr a.ty), deps := a.deps }) := by
  rw [valueReturn] at h
  split at h
  · rename_i hm
    obtain ⟨⟨s1, x⟩, h1, h⟩ := PassRun.bind_done.1 h
    cases x with
    | error e => cases h
    | ok p => cases h; exact .inl ⟨p, hm.1, hm.2, h1, rfl⟩
  · rename_i hm
    cases h
    exact .inr ⟨hm, rfl, rfl⟩

/-- How a result is returned. -/
inductive ReturnFate (env : FnEnv) (s : FnState) (ns : List String) (diag : QName) (soph : Sophistication) :
    Option Ty → FnState → ReturnAnalysis → Prop
  | nothing : ReturnFate env s ns diag soph none s {}
  | plain {ty : Ty} {s' : FnState} {a : Annotated Ty} {r : ReturnAnalysis}
      (h : convertBoxed env s ns ty = .done (s', .ok a))
      (hp : ∀ segs args, a.ty = .path segs args → ∃ q ∈ env.podSafe, QName.ofTypePath segs = some q)
      (hr : plainReturn env a = some r) : ReturnFate env s ns diag soph (some ty) s' r
  | value {ty : Ty} {s1 s' : FnState} {a : Annotated Ty} {r : ReturnAnalysis} {segs : List String} {args : List Ty}
      {q : QName} (h : convertBoxed env s ns ty = .done (s1, .ok a)) (ht : a.ty = .path segs args)
      (hq : QName.ofTypePath segs = some q) (hp : q ∉ env.podSafe)
      (hr : valueReturn env s1 ns diag soph q a = .done (s', .ok r)) : ReturnFate env s ns diag soph (some ty) s' r

theorem convertReturn_ok {env : FnEnv} {s s' : FnState} {ns : List String} {diag : QName} {soph : Sophistication}
    {ty : Option Ty} {r : ReturnAnalysis} (h : convertReturn env s ns diag soph ty = .done (s', .ok r)) :
    ReturnFate env s ns diag soph ty s' r := by
  cases ty with
  | none => cases h; exact .nothing
  | some ty =>
    rw [convertReturn] at h
    obtain ⟨⟨s1, x⟩, h1, h⟩ := PassRun.bind_done.1 h
    cases x with
    | error e => cases h
    | ok a =>
      dsimp only at h
      split at h
      · rename_i segs args ht
        cases hq : QName.ofTypePath segs with
        | none => rw [hq] at h; cases h
        | some tn =>
          rw [hq] at h
          dsimp only at h
          split at h
          · rename_i hp
            split at h
            · cases h
            · rename_i r' hr
              cases h
              refine .plain h1 ?_ hr
              intro segs' args' e
              rw [ht] at e
              cases e
              exact ⟨tn, hp, hq⟩
          · rename_i hp
            exact .value h1 ht hq hp h
      · rename_i ht
        split at h
        · cases h
        · rename_i r' hr
          cases h
          exact .plain h1 (fun segs args e => absurd e (ht segs args)) hr

theorem ReturnFate.placement_from {env : FnEnv} {s s' : FnState} {ns : List String} {diag : QName}
    {soph : Sophistication} {ty : Option Ty} {r : ReturnAnalysis} (h : ReturnFate env s ns diag soph ty s' r) :
    ∀ p ∈ r.placement.toList, FromConversion env ns diag p := by
  cases h with
  | nothing => intro p hp; cases hp
  | plain h1 hp hr =>
    obtain ⟨c, _, rfl⟩ := Option.map_eq_some_iff.1 hr
    intro p hp; cases hp
  | value h1 ht hq hp hr =>
    rcases valueReturn_ok hr with ⟨p, _, _, h2, rfl⟩ | ⟨_, _, rfl⟩
    · intro q hq
      cases List.mem_singleton.1 hq
      exact ⟨_, _, _, _, h2⟩
    · intro p hp; cases hp

theorem FnSteps.all_from {env : FnEnv} {s s' : FnState} {name n : ApiName} {f : FuncToConvert} {soph : Sophistication}
    {pre : Option String} {a : FnAnalysis} (t : FnSteps env s name f soph pre s' a n) :
    ∀ p ∈ t.ps' ++ t.ret.placement.toList, FromConversion env name.name.ns ⟨name.name.ns, t.diag⟩ p := by
  intro p hp
  rcases List.mem_append.1 hp with hp | hp
  · exact (reanalyzeParams_from t.hre t.hparams.from).1 p hp
  · rcases t.hret with ⟨hr, _⟩ | ⟨e, _, hr, _⟩
    · exact (convertReturn_ok hr).placement_from p hp
    · rw [hr] at hp; cases hp

theorem wrapperNeeded_false {env : FnEnv} {f : FuncToConvert} {kind : FnKind} {bn rn : String}
    {ps : List ArgumentAnalysis} {ret : Option TypeConversionPolicy} {bad : Bool}
    (h : wrapperNeeded env f kind bn rn ps ret bad = false) :
    ps.any (fun p => p.conversion.cppWorkNeeded) = false ∧ ∀ c, ret = some c → c.cppWorkNeeded = false := by
  rw [wrapperNeeded.eq_def] at h
  split at h
  all_goals first | cases h | skip
  simp only [Bool.or_eq_false_iff] at h
  refine ⟨h.1.1.1.1.2, fun c hc => ?_⟩
  have := h.1.1.1.2
  rw [hc] at this
  exact this

/-- C25: whether or not there is a C++ wrapper, the type of each parameter in the bridge is the type the conversion of
that parameter says Rust hands over. -/
theorem bridge_params_agree {env : FnEnv} {s s' : FnState} {name n : ApiName} {f : FuncToConvert}
    {soph : Sophistication} {pre : Option String} {a : FnAnalysis}
    (h : analyzeForeignFn env s name f soph pre = .done (s', a, n)) :
    a.params.map FnArg.type = a.paramDetails.map (·.conversion.convertedRustType) := by
  obtain ⟨t⟩ := analyze_steps h
  have hall := t.all_from
  obtain ⟨w, final, _, hw, hf, _, _, _, ha⟩ := finish_inv t.hfin
  rw [ha]
  cases w with
  | true =>
    simp only [if_true, List.map_map]
    apply List.map_congr_left
    intro p _
    rfl
  | false =>
    simp only [Bool.false_eq_true, if_false, List.map_map]
    apply List.map_congr_left
    intro p hp
    obtain ⟨s1, s2, m, i, hi⟩ := hall p hp
    refine convertFnArg_plain hi ?_
    have hw' : ((t.ps' ++ t.ret.placement.toList).map (·.2)).any (fun p => p.conversion.cppWorkNeeded) = false := by
      exact (wrapperNeeded_false hw.symm).1
    rw [List.any_eq_false] at hw'
    simpa using hw' p.2 (List.mem_map_of_mem hp)

theorem plainReturn_conv {env : FnEnv} {a : Annotated Ty} {r : ReturnAnalysis} (h : plainReturn env a = some r) :
    ∃ c, r.conversion = some c ∧ c.populateReturnValue = true ∧ r.rt = some a.ty ∧
      (c.cppWorkNeeded = false → c.unconvertedRustType = a.ty) := by
  rw [plainReturn] at h
  obtain ⟨c, hc, rfl⟩ := Option.map_eq_some_iff.1 h
  refine ⟨c, rfl, ?_, rfl, ?_⟩
  all_goals split at hc
  · rw [TypeConversionPolicy.returnReferenceIntoWrapper.eq_def] at hc
    split at hc
    · cases hc; rfl
    · obtain ⟨x, _, rfl⟩ := Option.map_eq_some_iff.1 hc; rfl
    · cases hc
  · cases hc; rfl
  · rw [TypeConversionPolicy.returnReferenceIntoWrapper.eq_def] at hc
    split at hc
    · cases hc; intro h; cases h
    · obtain ⟨x, _, rfl⟩ := Option.map_eq_some_iff.1 hc; intro h; cases h
    · cases hc
  · cases hc; intro _; rfl

/-- C25: whether or not there is a C++ wrapper, the type of the result in the bridge is the type the conversion of the
result says Rust gets; there is none if the result is written to a place given by the caller, or there is none. -/
theorem bridge_return_agrees {env : FnEnv} {s s' : FnState} {name n : ApiName} {f : FuncToConvert}
    {soph : Sophistication} {pre : Option String} {a : FnAnalysis}
    (h : analyzeForeignFn env s name f soph pre = .done (s', a, n)) :
    a.retType = a.retConversion.bind fun c => if c.populateReturnValue then some c.unconvertedRustType else none := by
  obtain ⟨t⟩ := analyze_steps h
  obtain ⟨w, final, _, hw, hf, _, _, _, ha⟩ := finish_inv t.hfin
  rw [ha]
  have key : (∃ c, t.ret.conversion = some c ∧ c.populateReturnValue = true ∧
      ((c.cppWorkNeeded = false → t.ret.rt = some c.unconvertedRustType))) ∨
      (∃ c, t.ret.conversion = some c ∧ c.populateReturnValue = false ∧ t.ret.rt = none) ∨
      (t.ret.conversion = none ∧ t.ret.rt = none) := by
    rcases t.hret with ⟨hr, _⟩ | ⟨e, _, hr, _⟩
    · have hr := convertReturn_ok hr
      generalize f.output = out at hr
      generalize t.ret = ret at hr ⊢
      generalize t.s4 = s4 at hr
      cases hr with
      | nothing => exact .inr (.inr ⟨rfl, rfl⟩)
      | plain h1 hp hr =>
        obtain ⟨c, h1, h2, h3, h4⟩ := plainReturn_conv hr
        exact .inl ⟨c, h1, h2, fun h => by rw [h3, h4 h]⟩
      | value h1 ht hq hp hr =>
        rcases valueReturn_ok hr with ⟨p, _, _, h2, e⟩ | ⟨_, _, e⟩
        · rw [e]; exact .inr (.inl ⟨_, rfl, rfl, rfl⟩)
        · rw [e]; exact .inl ⟨_, rfl, rfl, fun h => by cases h⟩
    · rw [hr]; exact .inr (.inr ⟨rfl, rfl⟩)
  cases w with
  | true =>
    dsimp only
    rw [if_pos rfl, bridgeReturn]
    rcases key with ⟨c, h1, h2, _⟩ | ⟨c, h1, h2, h3⟩ | ⟨h1, h2⟩
    · rw [h1]; simp [h2]
    · rw [h1]; simp [h2, h3]
    · rw [h1]; simp [h2]
  | false =>
    dsimp only
    rw [if_neg (by decide)]
    have hw' : ∀ c, t.ret.conversion = some c → c.cppWorkNeeded = false := by
      intro c hc
      exact (wrapperNeeded_false hw.symm).2 c hc
    rcases key with ⟨c, h1, h2, h3⟩ | ⟨c, h1, h2, h3⟩ | ⟨h1, h2⟩
    · rw [h1]; simp [h2, h3 (hw' c h1)]
    · rw [h1]; simp [h2, h3]
    · rw [h1]; simp [h2]

/-- C25: the C++ wrapper is told of exactly the conversions of the parameters, in order, and of that of the result;
it is called by the name the function has in the bridge. -/
theorem wrapper_conversions {env : FnEnv} {s s' : FnState} {name n : ApiName} {f : FuncToConvert}
    {soph : Sophistication} {pre : Option String} {a : FnAnalysis}
    (h : analyzeForeignFn env s name f soph pre = .done (s', a, n)) {w : CppFunction} (hw : a.cppWrapper = some w) :
    w.argumentConversion = a.paramDetails.map (·.conversion) ∧ w.returnConversion = a.retConversion ∧
      w.wrapperFunctionName = a.cxxbridgeName ∧ w.passObsField = false ∧ w.qualification = none := by
  obtain ⟨t⟩ := analyze_steps h
  obtain ⟨b, final, _, _, _, _, _, _, ha⟩ := finish_inv t.hfin
  rw [ha] at hw ⊢
  cases b with
  | true => cases hw; exact ⟨rfl, rfl, rfl, rfl, rfl⟩
  | false => cases hw

end Verif
