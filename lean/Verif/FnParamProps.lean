import Verif.FnExposedProps

/-!
# Parameters of functions: their order, unsafety, references and dependencies
-/

set_option autoImplicit false

namespace Verif

/-! ### C26: one parameter for each in C++, in the same order -/

/-- A parameter in the bridge stands for this one in C++: it has its name, except that `this` may be called `self`, and
its type was converted. -/
structure StandsFor (env : FnEnv) (ns : List String) (i : FnArg) (p : ArgumentAnalysis) : Prop where
  converted : ∃ s s' diag m arg, convertFnArg env s ns diag m i = .done (s', .ok (arg, p))
  name : ∃ n t, i = .typed n t ∧ (n ≠ "this" → p.name = n ∧ p.selfType = none) ∧
    (n = "this" → (p.name = "self" ∨ p.name = "this") ∧ p.selfType.isSome)

theorem standsFor {env : FnEnv} {s s' : FnState} {ns : List String} {diag : QName} {m : ArgMode} {i : FnArg}
    {p : FnArg × ArgumentAnalysis} (h : convertFnArg env s ns diag m i = .done (s', .ok p)) :
    StandsFor env ns i p.2 := by
  refine ⟨⟨s, s', diag, m, p.1, h⟩, ?_⟩
  obtain ⟨nm, ty, self, into, hp, h⟩ := convertFnArg_ok h
  obtain ⟨st, a, conv, _, _, _, rfl⟩ := convertNamedArg_ok h
  cases hp with
  | thisRef ht hr => exact ⟨_, _, rfl, fun h => absurd rfl h, fun _ => ⟨.inl rfl, rfl⟩⟩
  | thisPtr ht hr => exact ⟨_, _, rfl, fun h => absurd rfl h, fun _ => ⟨.inr rfl, rfl⟩⟩
  | other hn hv => exact ⟨_, _, rfl, fun _ => ⟨rfl, rfl⟩, fun h => absurd h hn⟩

theorem All2.set {α β : Type} {R : α → β → Prop} {l : List α} {m : List β} (h : All2 R l m) {i : Nat} {a : α} {b : β}
    (ha : l[i]? = some a) (hr : R a b) : All2 R l (m.set i b) := by
  induction h generalizing i with
  | nil => cases ha
  | cons h t ih =>
    cases i with
    | zero => cases ha; exact .cons hr t
    | succ i => exact .cons h (ih ha)

theorem All2.map_right {α β γ : Type} {R : α → γ → Prop} {l : List α} {m : List β} {g : β → γ}
    (h : All2 (fun a b => R a (g b)) l m) : All2 R l (m.map g) := by
  induction h with
  | nil => exact .nil
  | cons h _ ih => exact .cons h ih

theorem ParamFates.aligned {env : FnEnv} {ns : List String} {diag : QName} {m : ArgMode} {s s' : FnState}
    {l : List FnArg} {ps : List (FnArg × ArgumentAnalysis)} {es : List Err}
    (h : ParamFates env ns diag m s l s' ps es) (he : es = []) :
    All2 (fun i p => StandsFor env ns i p.2) l ps := by
  induction h with
  | nil => exact .nil
  | good h _ ih => exact .cons (standsFor h) (ih he)
  | bad h _ ih => cases he

theorem reanalyze_aligned {env : FnEnv} {s s' : FnState} {ns : List String} {diag : QName} {inputs : List FnArg}
    {m : ArgMode} {idx : Nat} {ps ps' : List (FnArg × ArgumentAnalysis)} {e : Option Err}
    (h : reanalyze env s ns diag inputs m idx ps = .done (s', ps', e))
    (ha : All2 (fun i p => StandsFor env ns i p.2) inputs ps) :
    All2 (fun i p => StandsFor env ns i p.2) inputs ps' := by
  obtain ⟨i, hi, ⟨p, hp, _, rfl, _⟩ | ⟨x, _, rfl, _⟩⟩ := reanalyze_done h
  · exact ha.set hi (standsFor hp)
  · exact ha

theorem reanalyzeParams_aligned {env : FnEnv} {s s' : FnState} {ns : List String} {diag : QName} {f : FuncToConvert}
    {soph : Sophistication} {kind : FnKind} {ps ps' : List (FnArg × ArgumentAnalysis)} {e : Option Err}
    (h : reanalyzeParams env s ns diag f soph kind ps = .done (s', ps', e))
    (ha : All2 (fun i p => StandsFor env ns i p.2) f.inputs ps) :
    All2 (fun i p => StandsFor env ns i p.2) f.inputs ps' := by
  rw [reanalyzeParams.eq_def] at h
  dsimp only at h
  split at h
  · exact reanalyze_aligned h ha
  · exact reanalyze_aligned h ha
  · obtain ⟨⟨s1, ps1, e1⟩, h1, h⟩ := PassRun.bind_done.1 h
    cases h
    exact reanalyze_aligned h1 ha
  · obtain ⟨⟨s1, ps1, e1⟩, h1, h⟩ := PassRun.bind_done.1 h
    obtain ⟨⟨s2, ps2, e2⟩, h2, h⟩ := PassRun.bind_done.1 h
    cases h
    exact reanalyze_aligned h2 (reanalyze_aligned h1 ha)
  · cases h; exact ha

/-- The parameter through which the place for the result is passed. -/
def ArgumentAnalysis.ForResult (p : ArgumentAnalysis) : Prop :=
  p.name = "placement_return_type" ∧ p.isPlacementReturnDestination = true ∧
    p.conversion.rustConversion = .fromPlacementParamToNewReturn

theorem convertFnArg_other {env : FnEnv} {s s' : FnState} {ns : List String} {diag : QName} {m : ArgMode} {nm : Ident}
    {ty : Ty} {p : FnArg × ArgumentAnalysis} (hn : nm ≠ "this")
    (h : convertFnArg env s ns diag m (.typed nm ty) = .done (s', .ok p)) :
    validateIdentOkForCxx nm = .ok ∧ convertNamedArg env s ns m nm ty none false = .done (s', .ok p) := by
  rw [convertFnArg, if_neg hn] at h
  cases hv : validateIdentOkForCxx nm with
  | panic => rw [hv] at h; cases h
  | bad e => rw [hv] at h; cases h
  | ok => rw [hv] at h; exact ⟨rfl, h⟩

theorem convert_ptr {env : ConvEnv} {ns : List String} {n : Nat} {ctx : ConvCtx} {st st' : Concretes} {mu : Bool} {e : Ty}
    {a : Annotated Ty} (h : convertType env ns n ctx st (.ptr mu e) = (st', .ok a)) :
    ∃ n' b, n = n' + 1 ∧ convertType env ns n' .withinReference st e = (st', .ok b) ∧
      a = { b with ty := .ptr mu b.ty, kind := .pointer } := by
  cases n with
  | zero => cases h
  | succ n =>
    cases convertType_ok h with
    | ptr hp hr => exact ⟨n, _, rfl, hr, rfl⟩

theorem valueReturn_forResult {env : FnEnv} {s s' : FnState} {ns : List String} {diag : QName} {t : Ty}
    {p : FnArg × ArgumentAnalysis} (h : convertFnArg env s ns diag
        { thisAsReference := false, force := some .fromPlacementParamToNewReturn }
        (.typed "placement_return_type" (.ptr true t)) = .done (s', .ok p)) : p.2.ForResult := by
  obtain ⟨_, h⟩ := convertFnArg_other (by decide) h
  obtain ⟨st, a, conv, hc, _, hv, rfl⟩ := convertNamedArg_ok h
  obtain ⟨_, b, _, _, rfl⟩ := convert_ptr hc
  refine ⟨rfl, rfl, ?_⟩
  show conv.rustConversion = _
  simp only [argConversion, and_self, if_true, Option.some.injEq] at hv
  rw [← hv]

/-- C26: if every parameter could be converted – as for any function which is offered – there is one parameter in the
bridge for each in C++, in the same order, and at most one more, for the result. -/
theorem params_in_order {env : FnEnv} {s s' : FnState} {name n : ApiName} {f : FuncToConvert}
    {soph : Sophistication} {pre : Option String} {a : FnAnalysis}
    (h : analyzeForeignFn env s name f soph pre = .done (s', a, n)) (hx : a.ignoreReason = none) :
    ∃ ps rest, a.paramDetails = ps ++ rest ∧ All2 (StandsFor env name.name.ns) f.inputs ps ∧
      (rest = [] ∨ ∃ p, rest = [p] ∧ p.ForResult ∧ f.output.isSome = true) := by
  obtain ⟨t⟩ := analyze_steps h
  obtain ⟨_, _, _, hb, _, _⟩ := exposed_parts t hx
  have ha := reanalyzeParams_aligned t.hre (t.hparams.aligned hb)
  refine ⟨t.ps'.map (·.2), t.ret.placement.toList.map (·.2), by rw [t.details_eq, List.map_append], ha.map_right, ?_⟩
  rcases t.hret with ⟨hr, _⟩ | ⟨e, _, hr, _⟩
  · have hr := convertReturn_ok hr
    generalize f.output = out at hr ⊢
    generalize t.ret = ret at hr ⊢
    generalize t.s4 = s4 at hr
    cases hr with
    | nothing => exact .inl rfl
    | plain h1 hp hr => obtain ⟨c, _, rfl⟩ := Option.map_eq_some_iff.1 hr; exact .inl rfl
    | value h1 ht hq hp hr =>
      rcases valueReturn_ok hr with ⟨p, _, _, h2, rfl⟩ | ⟨_, _, rfl⟩
      · exact .inr ⟨_, rfl, valueReturn_forResult h2, rfl⟩
      · exact .inl rfl
  · rw [hr]; exact .inl rfl

/-! ### When there is a wrapper in C++ -/

/-- A C++ wrapper is made exactly for static methods, constructors, virtual methods and destructors, for methods which
cannot have their name in the bridge, whenever a parameter or the result must be converted in C++, whenever the C++ name
is not good for Rust or the C++ code is made up, or if wrappers are forced. -/
theorem wrapper_iff {env : FnEnv} {f : FuncToConvert} {kind : FnKind} {bn rn : String} {ps : List ArgumentAnalysis}
    {ret : Option TypeConversionPolicy} {bad : Bool} : wrapperNeeded env f kind bn rn ps ret bad = true ↔
      (∃ q, kind = .method .static q) ∨ (∃ d q, kind = .method (.constructor d) q) ∨
      (∃ r q, kind = .method (.virtual r) q) ∨ (∃ r q, kind = .method (.pureVirtual r) q) ∨
      (∃ k q d, kind = .traitMethod k q d ∧ (k = .copyConstructor ∨ k = .moveConstructor ∨ k = .destructor)) ∨
      (∃ mk q, kind = .method mk q ∧ bn ≠ rn) ∨ (∃ p ∈ ps, p.conversion.cppConversion ≠ .none) ∨
      (∃ c, ret = some c ∧ c.cppConversion ≠ .none) ∨ bad = true ∨ f.syntheticCpp.isSome = true ∨
      env.forceWrappers = true := by
  rw [wrapperNeeded.eq_def]
  cases ret <;> cases kind with
  | function => simp [TypeConversionPolicy.cppWorkNeeded, or_assoc]
  | method k q => cases k <;> simp [TypeConversionPolicy.cppWorkNeeded, or_assoc]
  | traitMethod k q d => cases k <;> simp [TypeConversionPolicy.cppWorkNeeded, or_assoc]

/-- The name the bridge gives a function, with the wrapper's suffix if there is a C++ wrapper. -/
theorem wrapper_suffix {env : FnEnv} {s s' : FnState} {name n : ApiName} {f : FuncToConvert} {soph : Sophistication}
    {pre : Option String} {a : FnAnalysis} (t : FnSteps env s name f soph pre s' a n) :
    (a.cppWrapper.isSome = true ↔
      wrapperNeeded env f a.kind t.bridgeName a.rustName a.paramDetails a.retConversion t.bad = true) ∧
    (a.cppWrapper = none → a.cxxbridgeName = t.bridgeName) := by
  have h1 := t.details_eq
  have h2 := t.kind_eq
  have h3 := t.name_eq
  have h4 := t.retConversion_eq
  obtain ⟨w, final, np, hw, hf, _, _, _, ha⟩ := finish_inv t.hfin
  rw [h1, h2, h3, h4, ← hw]
  have hc := congrArg FnAnalysis.cppWrapper ha
  have hn : a.cxxbridgeName = final := congrArg FnAnalysis.cxxbridgeName ha
  rw [hc, hn]
  cases w with
  | true => simp
  | false => simp [hf]

/-! ### C18: unsafety -/

theorem kind_regular_not_ptr (env : ConvEnv) (ns : List String) (n : Nat) (ctx : ConvCtx) (st st' : Concretes)
    (ty : Ty) (a : Annotated Ty) (h : convertType env ns n ctx st ty = (st', .ok a)) (hk : a.kind = .regular) :
    ∀ mu e, a.ty ≠ .ptr mu e := by
  induction n generalizing ctx st st' ty a with
  | zero => cases h
  | succ n ih =>
    cases convertType_ok h with
    | marker hm h' hr => exact ih _ _ _ _ _ hr hk
    | lvalue h' hr =>
      rename_i mu e b
      cases mu <;> cases hk
    | rvalue h' hp hr => cases hk
    | ref hr => cases hk
    | array hr => simp
    | ptr hp hr => cases hk
    | done hp =>
      rcases prepared_inv hp with ⟨_, e⟩ | ⟨_, _, _, _, _, e⟩ | ⟨mu, e', he, e⟩ | ⟨t, he, h1, h2, e⟩
      · cases e
      · cases e
      · cases e; cases hk
      · cases e; exact h2
    | plain hp hf =>
      rcases finishPath_ok hf with ⟨rfl, _⟩ | ⟨rfl, _⟩
      · simp
      · cases hk
    | concrete hp hb hi hqn hig ht hf =>
      rcases finishPath_ok hf with ⟨rfl, _⟩ | ⟨rfl, _⟩
      · simp
      · cases hk
    | container hp hb hargs hk' hf =>
      rcases finishPath_ok hf with ⟨rfl, _⟩ | ⟨rfl, _⟩
      · simp
      · cases hk

/-- A parameter is handed over as the raw pointer it is. -/
def ArgumentAnalysis.RawPointer (p : ArgumentAnalysis) : Prop :=
  ∃ mu e, p.conversion = ⟨.ptr mu e, .none, .none⟩

theorem argUnsafety_always {k : ConvKind} {c : TypeConversionPolicy} {pl : Bool} :
    argUnsafety k c pl = .always ↔ k = .pointer ∧ pl = false := by
  rw [argUnsafety]
  split
  · simpa using ‹_›
  · rename_i h
    split <;> simp only [reduceCtorEq, false_iff] <;> exact h

/-- Of the parameters which are neither the object nor the place for the result, exactly the raw pointers ask callers
for care. -/
theorem param_unsafe_iff {env : FnEnv} {s s' : FnState} {ns : List String} {diag : QName} {m : ArgMode} {i : FnArg}
    {p : FnArg × ArgumentAnalysis} (h : convertFnArg env s ns diag m i = .done (s', .ok p))
    (hm : m.isMove = false) (hf : m.force = none ∨ m.force = some .fromPlacementParamToNewReturn) (hh : ¬ p.2.Hidden) :
    p.2.requiresUnsafe = .always ↔ p.2.RawPointer := by
  obtain ⟨nm, ty, self, into, hp, h⟩ := convertFnArg_ok h
  obtain ⟨st, a, conv, hc, _, hv, rfl⟩ := convertNamedArg_ok h
  have hself : self = none := by
    cases hp with
    | thisRef => exact absurd (.inl rfl) hh
    | thisPtr => exact absurd (.inl rfl) hh
    | other => rfl
  subst hself
  have hpl : (into || decide (m.force = some .fromPlacementParamToNewReturn)) = false := by
    cases hpl : (into || decide (m.force = some .fromPlacementParamToNewReturn)) with
    | false => rfl
    | true => exact absurd (.inr hpl) hh
  have hforce : m.force = none := by
    rcases hf with hf | hf
    · exact hf
    · simp [hf] at hpl
  rw [hpl] at hv
  rw [show (recordedArg nm none (into || decide (m.force = some .fromPlacementParamToNewReturn)) a conv).requiresUnsafe =
    argUnsafety a.kind conv (into || decide (m.force = some .fromPlacementParamToNewReturn)) from rfl, hpl]
  rw [argUnsafety_always]
  have hd := kind_describes _ _ _ _ _ _ _ _ hc
  constructor
  · rintro ⟨hk, _⟩
    rw [hk] at hd
    obtain ⟨mu, e, ht⟩ := hd
    refine ⟨mu, e, ?_⟩
    show conv = _
    rw [argConversion, hk, ht, hforce, hm] at hv
    simpa using hv.symm
  · rintro ⟨mu, e, hconv⟩
    refine ⟨?_, rfl⟩
    have hconv : conv = ⟨.ptr mu e, .none, .none⟩ := hconv
    have hty := argConversion_plain hv (by rw [hconv])
    rw [hconv] at hty
    have hty : a.ty = .ptr mu e := hty.symm
    cases hk : a.kind with
    | pointer => rfl
    | regular => exact absurd hty (kind_regular_not_ptr _ _ _ _ _ _ _ _ hc hk mu e)
    | rvalueReference =>
      rw [argConversion, hk, hty, hforce, hm, hconv] at hv
      simp at hv
    | reference => rw [hk] at hd; obtain ⟨_, _, _, ht⟩ := hd; rw [hty] at ht; cases ht
    | mutableReference => rw [hk] at hd; obtain ⟨_, ht⟩ := hd; rw [hty] at ht; cases ht
    | subclassHolder x => rw [hk] at hd; obtain ⟨_, _, _, _, ht, _⟩ := hd; rw [hty] at ht; cases ht

/-- The mode of conversion with which a parameter of a function or ordinary method was converted. -/
def PlainMode (env : FnEnv) (ns : List String) (p : FnArg × ArgumentAnalysis) : Prop :=
  ∃ s s' diag m i, convertFnArg env s ns diag m i = .done (s', .ok p) ∧ m.isMove = false ∧
    (m.force = none ∨ m.force = some .fromPlacementParamToNewReturn) ∧
    (m.intoSelf = true → m.thisAsReference = false) ∧
    (m.force = none ∨ m.soph = .regular ∧ ∃ t, i = .typed "placement_return_type" (.ptr true t))

theorem ParamFates.plain {env : FnEnv} {ns : List String} {diag : QName} {m : ArgMode} {s s' : FnState}
    {l : List FnArg} {ps : List (FnArg × ArgumentAnalysis)} {es : List Err}
    (h : ParamFates env ns diag m s l s' ps es) (hm : m.isMove = false) (hf : m.force = none)
    (hi : m.intoSelf = true → m.thisAsReference = false) :
    ∀ p ∈ ps, PlainMode env ns p := by
  induction h with
  | nil => intro p hp; cases hp
  | good h _ ih =>
    intro p hp
    rcases List.mem_cons.1 hp with rfl | hp
    · exact ⟨_, _, _, _, _, h, hm, .inl hf, hi, .inl hf⟩
    · exact ih p hp
  | bad _ _ ih => exact ih

theorem FnSteps.plain {env : FnEnv} {s s' : FnState} {name n : ApiName} {f : FuncToConvert} {soph : Sophistication}
    {pre : Option String} {a : FnAnalysis} (t : FnSteps env s name f soph pre s' a n) (hk : ¬ a.kind.OfTrait) :
    ∀ p ∈ t.ps' ++ t.ret.placement.toList, PlainMode env name.name.ns p := by
  have hps := t.hparams.plain rfl rfl (fun h => by cases h)
  intro p hp
  rcases List.mem_append.1 hp with hp | hp
  · have hre := t.hre
    rw [← t.kind_eq] at hre
    rw [reanalyzeParams.eq_def] at hre
    dsimp only at hre
    split at hre
    · obtain ⟨i, _, ⟨q, h1, _, h2, _⟩ | ⟨x, _, h2, _⟩⟩ := reanalyze_done hre
      · rw [h2] at hp
        rcases List.mem_or_eq_of_mem_set hp with hp | rfl
        · exact hps p hp
        · exact ⟨_, _, _, _, _, h1, rfl, .inl rfl, fun _ => rfl, .inl rfl⟩
      · rw [h2] at hp; exact hps p hp
    · rename_i hkk; rw [hkk] at hk; exact absurd trivial hk
    · rename_i hkk; rw [hkk] at hk; exact absurd trivial hk
    · rename_i hkk; rw [hkk] at hk; exact absurd trivial hk
    · simp only [PassRun.done.injEq, Prod.mk.injEq] at hre
      rw [← hre.2.1] at hp; exact hps p hp
  · rcases t.hret with ⟨hr, _⟩ | ⟨e, _, hr, _⟩
    · have hr := convertReturn_ok hr
      generalize f.output = out at hr
      generalize t.ret = ret at hr hp
      generalize t.s4 = s4 at hr
      cases hr with
      | nothing => cases hp
      | plain h1 hp' hr => obtain ⟨c, _, rfl⟩ := Option.map_eq_some_iff.1 hr; cases hp
      | value h1 ht hq hp' hr =>
        rcases valueReturn_ok hr with ⟨q, _, _, h2, rfl⟩ | ⟨_, _, rfl⟩
        · cases List.mem_singleton.1 hp
          exact ⟨_, _, _, _, _, h2, rfl, .inr rfl, fun _ => rfl, .inr ⟨rfl, _, rfl⟩⟩
        · cases hp
    · rw [hr] at hp; cases hp

/-- C18: a function or method – trait methods aside – must be called in an `unsafe` block exactly if the policy makes all
functions unsafe, or it takes a raw pointer other than the object it works on and the place for its result. -/
theorem unsafe_iff_pointer {env : FnEnv} {s s' : FnState} {name n : ApiName} {f : FuncToConvert}
    {soph : Sophistication} {pre : Option String} {a : FnAnalysis}
    (h : analyzeForeignFn env s name f soph pre = .done (s', a, n)) (hk : ¬ a.kind.OfTrait) :
    a.requiresUnsafe.wrapperToken = true ↔
      env.policy = .allFunctionsUnsafe ∨ ∃ p ∈ a.paramDetails, ¬ p.Hidden ∧ p.RawPointer := by
  obtain ⟨t⟩ := analyze_steps h
  rw [t.unsafe_eq, caller_unsafe_iff]
  have hut : ¬ a.kind.UnsafeTrait := by
    intro hu
    cases hkk : a.kind with
    | traitMethod k q d => rw [hkk] at hk; exact hk trivial
    | function => rw [hkk] at hu; exact hu
    | method k q => rw [hkk] at hu; exact hu
  have hp := t.plain hk
  rw [t.details_eq]
  constructor
  · rintro (hu | ⟨_, hpol | ⟨p, hpm, hu, hh⟩⟩)
    · exact absurd hu hut
    · exact .inl hpol
    · obtain ⟨q, hq, rfl⟩ := List.mem_map.1 hpm
      obtain ⟨_, _, _, m, i, hc, h1, h2, _⟩ := hp q hq
      exact .inr ⟨_, hpm, hh, (param_unsafe_iff hc h1 h2 hh).1 hu⟩
  · rintro (hpol | ⟨p, hpm, hh, hr⟩)
    · exact .inr ⟨hk, .inl hpol⟩
    · obtain ⟨q, hq, rfl⟩ := List.mem_map.1 hpm
      obtain ⟨_, _, _, m, i, hc, h1, h2, _⟩ := hp q hq
      exact .inr ⟨hk, .inr ⟨_, hpm, (param_unsafe_iff hc h1 h2 hh).2 hr, hh⟩⟩

end Verif
