import Verif.FnKindProps
import Verif.NamesProps

/-!
# More about analysed functions: pointers in the bridge, the object, and what wrappers do
-/

set_option autoImplicit false

namespace Verif

/-! ### How each parameter was converted -/

/-- A parameter came from one of the function's own, in a mode which has to do with the kind of function. -/
structure Came (env : FnEnv) (ns : List String) (f : FuncToConvert) (kind : FnKind)
    (p : FnArg × ArgumentAnalysis) : Prop where
  it : ∃ s s' diag m i, convertFnArg env s ns diag m i = .done (s', .ok p) ∧
    (m.isMove = true → ∃ q d, kind = .traitMethod .moveConstructor q d) ∧
    (m.virtualThis = f.synthesizedThisType ∨ ∃ n t, i = .typed n t ∧ n ≠ "this")

theorem ParamFates.came {env : FnEnv} {ns : List String} {diag : QName} {m : ArgMode} {s s' : FnState}
    {l : List FnArg} {ps : List (FnArg × ArgumentAnalysis)} {es : List Err} {f : FuncToConvert} {kind : FnKind}
    (h : ParamFates env ns diag m s l s' ps es) (hm : m.isMove = false) (hv : m.virtualThis = f.synthesizedThisType) :
    ∀ p ∈ ps, Came env ns f kind p := by
  induction h with
  | nil => intro p hp; cases hp
  | good h _ ih =>
    intro p hp
    rcases List.mem_cons.1 hp with rfl | hp
    · exact ⟨_, _, _, _, _, h, (fun e => by rw [hm] at e; cases e), .inl hv⟩
    · exact ih p hp
  | bad _ _ ih => exact ih

theorem reanalyze_came {env : FnEnv} {s s' : FnState} {ns : List String} {diag : QName} {inputs : List FnArg}
    {m : ArgMode} {idx : Nat} {ps ps' : List (FnArg × ArgumentAnalysis)} {e : Option Err} {f : FuncToConvert}
    {kind : FnKind} (h : reanalyze env s ns diag inputs m idx ps = .done (s', ps', e))
    (hm : m.isMove = true → ∃ q d, kind = .traitMethod .moveConstructor q d)
    (hv : m.virtualThis = f.synthesizedThisType)
    (hp : ∀ p ∈ ps, Came env ns f kind p) : ∀ p ∈ ps', Came env ns f kind p := by
  obtain ⟨i, _, ⟨q, h1, _, h2, _⟩ | ⟨x, _, h2, _⟩⟩ := reanalyze_done h
  · intro p hp'
    rw [h2] at hp'
    rcases List.mem_or_eq_of_mem_set hp' with hp' | rfl
    · exact hp p hp'
    · exact ⟨_, _, _, _, _, h1, hm, .inl hv⟩
  · rw [h2]; exact hp

theorem reanalyzeParams_came {env : FnEnv} {s s' : FnState} {ns : List String} {diag : QName} {f : FuncToConvert}
    {soph : Sophistication} {kind : FnKind} {ps ps' : List (FnArg × ArgumentAnalysis)} {e : Option Err}
    (h : reanalyzeParams env s ns diag f soph kind ps = .done (s', ps', e))
    (hp : ∀ p ∈ ps, Came env ns f kind p) : ∀ p ∈ ps', Came env ns f kind p := by
  rw [reanalyzeParams.eq_def] at h
  dsimp only at h
  split at h
  · exact reanalyze_came h (fun e => by cases e) rfl hp
  · exact reanalyze_came h (fun e => by cases e) rfl hp
  · obtain ⟨⟨s1, ps1, e1⟩, h1, h⟩ := PassRun.bind_done.1 h
    cases h
    exact reanalyze_came h1 (fun e => by cases e) rfl hp
  · obtain ⟨⟨s1, ps1, e1⟩, h1, h⟩ := PassRun.bind_done.1 h
    obtain ⟨⟨s2, ps2, e2⟩, h2, h⟩ := PassRun.bind_done.1 h
    cases h
    exact reanalyze_came h2 (fun _ => ⟨_, _, rfl⟩) rfl (reanalyze_came h1 (fun e => by cases e) rfl hp)
  · cases h; exact hp

theorem FnSteps.came {env : FnEnv} {s s' : FnState} {name n : ApiName} {f : FuncToConvert} {soph : Sophistication}
    {pre : Option String} {a : FnAnalysis} (t : FnSteps env s name f soph pre s' a n) :
    ∀ p ∈ t.ps' ++ t.ret.placement.toList, Came env name.name.ns f a.kind p := by
  rw [t.kind_eq]
  intro p hp
  rcases List.mem_append.1 hp with hp | hp
  · exact reanalyzeParams_came t.hre (t.hparams.came rfl rfl) p hp
  · rcases t.hret with ⟨hr, _⟩ | ⟨e, _, hr, _⟩
    · have hr := convertReturn_ok hr
      generalize f.output = out at hr
      generalize t.ret = ret at hr hp
      generalize t.s4 = s4 at hr
      cases hr with
      | nothing => cases hp
      | plain h1 hp' hr => obtain ⟨c, _, rfl⟩ := Option.map_eq_some_iff.1 hr; cases hp
      | value h1 ht hq hp' hr =>
        rcases valueReturn_ok hr with ⟨q, _, _, h2, rfl⟩ | ⟨_, _, rfl⟩
        · cases List.mem_singleton.1 hp
          exact ⟨_, _, _, _, _, h2, (fun e => by cases e), .inr ⟨_, _, rfl, by decide⟩⟩
        · cases hp
    · rw [hr] at hp; cases hp

/-! ### C18: pointers in the bridge -/

theorem argUnsafety_none {k : ConvKind} {c : TypeConversionPolicy} {pl : Bool} (h : argUnsafety k c pl = .none) :
    k ≠ .pointer ∧ c.bridgeUnsafeNeeded = false ∧ pl = false := by
  rw [argUnsafety] at h
  split at h
  · cases h
  · rename_i h1
    split at h
    · cases h
    · rename_i h2
      have hpl : pl = false := by
        cases pl with
        | false => rfl
        | true => exact absurd (.inr rfl) h2
      refine ⟨fun hk => h1 ⟨hk, hpl⟩, ?_, hpl⟩
      cases hb : c.bridgeUnsafeNeeded with
      | false => rfl
      | true => exact absurd (.inl hb) h2

/-- A parameter handed over as a pointer asks for care, unless it is what a move constructor moves from. -/
theorem pointer_param_unsafe {env : FnEnv} {s s' : FnState} {ns : List String} {diag : QName} {m : ArgMode} {i : FnArg}
    {p : FnArg × ArgumentAnalysis} (h : convertFnArg env s ns diag m i = .done (s', .ok p)) (hm : m.isMove = false)
    {mu : Bool} {e : Ty} (ht : p.2.conversion.convertedRustType = .ptr mu e) : p.2.requiresUnsafe ≠ .none := by
  obtain ⟨nm, ty, self, into, hp, h⟩ := convertFnArg_ok h
  obtain ⟨st, a, conv, hc, _, hv, rfl⟩ := convertNamedArg_ok h
  have hd := kind_describes _ _ _ _ _ _ _ _ hc
  have hreg := kind_regular_not_ptr _ _ _ _ _ _ _ _ hc
  intro hn
  obtain ⟨hk, hb, hpl⟩ := argUnsafety_none hn
  have ht : conv.convertedRustType = .ptr mu e := ht
  rw [Bool.or_eq_false_iff] at hpl
  have hforce : m.force ≠ some .fromPlacementParamToNewReturn := by simpa using hpl.2
  rw [argConversion] at hv
  split at hv
  · obtain ⟨x, _, rfl⟩ := Option.map_eq_some_iff.1 hv; cases ht
  · rw [if_neg (fun h => hforce h.1)] at hv
    split at hv
    · rw [pathConversion] at hv
      split at hv
      · cases hv
      · split at hv
        · obtain ⟨x, _, rfl⟩ := Option.map_eq_some_iff.1 hv; cases hb
        · split at hv
          · split at hv <;> cases hv <;> cases ht
          · split at hv
            · cases hv; cases ht
            · split at hv <;> cases hv <;> first | (cases hb; done) | (cases ht; done)
    · rename_i mu' e' hty
      rw [hm] at hv
      simp only [Bool.false_eq_true, if_false] at hv
      split at hv
      · cases hv; cases hb
      · rename_i hrv
        have : a.kind = .pointer := by
          cases hkk : a.kind with
          | pointer => rfl
          | regular => exact absurd hty (hreg hkk _ _)
          | rvalueReference => exact absurd hkk hrv
          | reference => rw [hkk, hty] at hd; obtain ⟨_, _, _, ht⟩ := hd; cases ht
          | mutableReference => rw [hkk, hty] at hd; obtain ⟨_, ht⟩ := hd; cases ht
          | subclassHolder x => rw [hkk, hty] at hd; obtain ⟨_, _, _, _, ht, _⟩ := hd; cases ht
        exact hk this
    · split at hv
      · split at hv
        · cases hv
        · cases hv; cases hb
      · cases hv; cases ht
    · rename_i h1 h2 h3
      cases hv
      exact h2 _ _ ht

/-- C18: `cxx` accepts raw pointers as parameters only of functions marked `unsafe` in the bridge, and every function
with such a parameter is. -/
theorem bridge_pointers_unsafe {env : FnEnv} {s s' : FnState} {name n : ApiName} {f : FuncToConvert}
    {soph : Sophistication} {pre : Option String} {a : FnAnalysis}
    (h : analyzeForeignFn env s name f soph pre = .done (s', a, n)) {mu : Bool} {e : Ty}
    (hp : .ptr mu e ∈ a.params.map FnArg.type) : a.requiresUnsafe.bridgeToken = true := by
  rw [bridge_params_agree h] at hp
  obtain ⟨t⟩ := analyze_steps h
  rw [t.unsafe_eq, bridge_unsafe_iff]
  obtain ⟨p, hp, ht⟩ := List.mem_map.1 hp
  have hp' := hp
  rw [t.details_eq] at hp'
  obtain ⟨q, hq, rfl⟩ := List.mem_map.1 hp'
  obtain ⟨_, _, _, m, _, h1, hm, _⟩ := (t.came q hq).it
  cases hmv : m.isMove with
  | false => exact .inr ⟨_, hp, pointer_param_unsafe h1 hmv ht⟩
  | true =>
    obtain ⟨q, d, hk⟩ := hm hmv
    left
    rw [caller_unsafe_iff, hk]
    exact .inl (.inr (.inl rfl))

/-! ### The object -/

/-- What a parameter standing for the object was made from: a pointer to the class. -/
def MadeFromPointer (env : FnEnv) (ns : List String) (target : Ty → Prop) (p : ArgumentAnalysis) : Prop :=
  ∃ st st' a ty mu t, convertType env.conv ns env.fuel .outerType st ty = (st', .ok a) ∧
    (ty = .ptr mu t ∨ ty = .path ["__bindgen_marker_Reference"] [.ptr mu t]) ∧ target t ∧
    (p.selfType.map (·.2) = some (if mu then .mutable else .const)) ∧ p.deps = a.deps

/-- C26: the object of a method made for a subclass is of that subclass, whatever class its superclass's method had. -/
theorem made_method_object {env : FnEnv} {s s' : FnState} {name n : ApiName} {f : FuncToConvert}
    {soph : Sophistication} {pre : Option String} {a : FnAnalysis}
    (h : analyzeForeignFn env s name f soph pre = .done (s', a, n)) {v : QName}
    (hv : f.synthesizedThisType = some v) :
    ∀ p ∈ a.paramDetails, p.selfType.isSome →
      p.selfType.map (·.1) = some v ∧ MadeFromPointer env name.name.ns (· = .path v.toTypePath []) p := by
  obtain ⟨t⟩ := analyze_steps h
  intro p hp hs
  rw [t.details_eq] at hp
  obtain ⟨q, hq, rfl⟩ := List.mem_map.1 hp
  obtain ⟨_, _, diag, m, i, h1, hm, hi⟩ := (t.came q hq).it
  clear hp
  obtain ⟨nm, ty, self, into, hp, h⟩ := convertFnArg_ok h1
  obtain ⟨st, a, conv, hc, _, _, rfl⟩ := convertNamedArg_ok h
  have key : ∀ {ty ty' : Ty} {q : QName × ReceiverMutability}, i = .typed "this" ty →
      thisType m.virtualThis diag ty = .done (.ok (q, ty')) →
      q.1 = v ∧ ∃ mu, ty' = .ptr mu (.path v.toTypePath []) ∧ q.2 = (if mu then .mutable else .const) := by
    intro ty ty' q hti ht
    have hmv : m.virtualThis = some v := by
      rcases hi with hi | ⟨n, t, hi, hn⟩
      · rw [hi, hv]
      · rw [hi] at hti; cases hti; exact absurd rfl hn
    rw [hmv, thisType.eq_def] at ht
    split at ht
    · cases ht; exact ⟨rfl, _, rfl, rfl⟩
    · cases ht
  cases hp with
  | thisRef ht hr =>
    obtain ⟨e1, mu, rfl, e2⟩ := key rfl ht
    refine ⟨by rw [← e1]; rfl, _, _, _, _, mu, _, hc, .inr rfl, rfl, by rw [← e2]; rfl, rfl⟩
  | thisPtr ht hr =>
    obtain ⟨e1, mu, rfl, e2⟩ := key rfl ht
    refine ⟨by rw [← e1]; rfl, _, _, _, _, mu, _, hc, .inl rfl, rfl, by rw [← e2]; rfl, rfl⟩
  | other hn hv => cases hs

/-! ### Constructors -/

/-- C18, C63: the first parameter of a constructor, the object to be made, is the bare pointer to the place where it is to
be, whatever the policy on references, and it is not for callers to worry about. -/
theorem constructor_place {env : FnEnv} {s s' : FnState} {name n : ApiName} {f : FuncToConvert} {soph : Sophistication}
    {pre : Option String} {a : FnAnalysis}
    (h : analyzeForeignFn env s name f soph pre = .done (s', a, n)) {b : Bool} {q : QName}
    (hk : a.kind = .method (.constructor b) q) (hx : a.ignoreReason = none) :
    ∃ p rest, a.paramDetails = p :: rest ∧ (p.selfType.isSome →
      p.isPlacementReturnDestination = true ∧ ∃ mu e, p.conversion = ⟨.ptr mu e, .none, .none⟩) := by
  obtain ⟨t⟩ := analyze_steps h
  obtain ⟨he, _⟩ := exposed_parts t hx
  have hre := t.hre
  rw [← t.kind_eq, hk, reanalyzeParams.eq_def] at hre
  dsimp only at hre
  obtain ⟨i, _, ⟨p, h1, hl, h2, _⟩ | ⟨x, _, _, h2⟩⟩ := reanalyze_done hre
  · obtain ⟨p0, l, hps⟩ : ∃ p0 l, t.ps = p0 :: l := by
      cases hps : t.ps with
      | nil => rw [hps] at hl; cases hl
      | cons p0 l => exact ⟨_, _, rfl⟩
    rw [hps] at h2
    refine ⟨p.2, (l ++ t.ret.placement.toList).map (·.2), by rw [t.details_eq, h2]; rfl, fun hs => ?_⟩
    obtain ⟨nm, ty, self, into, hp, h⟩ := convertFnArg_ok h1
    obtain ⟨st, c, conv, hc, _, hv, rfl⟩ := convertNamedArg_ok h
    cases hp with
    | thisRef ht hr => cases hr
    | other hn hv => cases hs
    | thisPtr ht hr =>
      refine ⟨rfl, ?_⟩
      rw [thisType.eq_def] at ht
      have : ∃ mu t', ty = .ptr mu t' := by
        split at ht
        · dsimp only at ht
          split at ht
          · cases ht; exact ⟨_, _, rfl⟩
          · split at ht
            · cases ht
            · cases ht; exact ⟨_, _, rfl⟩
        · cases ht
      obtain ⟨mu, t', rfl⟩ := this
      obtain ⟨_, b, _, _, rfl⟩ := convert_ptr hc
      show ∃ mu e, conv = _
      rw [argConversion] at hv
      simp only [Bool.true_or, Bool.false_eq_true, if_false, reduceCtorEq, false_and, and_false, Option.getD_none] at hv
      exact ⟨_, _, (Option.some.inj hv).symm⟩
  · rw [he] at h2; cases h2

/-! ### C64, C65: what the wrapper in C++ does -/

/-- What the C++ wrapper of a function has to do, going by what the function is: build the object in place, destroy it,
call a static member of the class, call a method of the object, or call a function. -/
inductive WrapperDoes (ns : List String) (called : String) : FnKind → CppFunctionBody → CppFunctionKind → Prop
  | construct {b : Bool} {q : QName} :
      WrapperDoes ns called (.method (.constructor b) q) (.placementNew ns q.name) .constructor
  | copy {q : QName} {d : TraitMethodDetails} :
      WrapperDoes ns called (.traitMethod .copyConstructor q d) (.placementNew ns q.name) .constructor
  | move {q : QName} {d : TraitMethodDetails} :
      WrapperDoes ns called (.traitMethod .moveConstructor q d) (.placementNew ns q.name) .constructor
  | destroy {q : QName} {d : TraitMethodDetails} :
      WrapperDoes ns called (.traitMethod .destructor q d) (.destructor ns q.name) .function
  | static {q : QName} : WrapperDoes ns called (.method .static q) (.staticMethodCall ns q.name called) .function
  | method {k : MethodKind} {q : QName} (hs : k ≠ .static) (hc : ∀ b, k ≠ .constructor b) :
      WrapperDoes ns called (.method k q) (.functionCall ns called) .method
  | trait {k : TraitMethodKind} {q : QName} {d : TraitMethodDetails} (hk : k = .cast ∨ k = .alloc ∨ k = .dealloc) :
      WrapperDoes ns called (.traitMethod k q d) (.functionCall ns called) .function
  | function : WrapperDoes ns called .function (.functionCall ns called) .function

/-- C64, C65: a wrapper does what its function is for, and its name is the one in the bridge. -/
theorem wrapper_does {env : FnEnv} {s s' : FnState} {name n : ApiName} {f : FuncToConvert} {soph : Sophistication}
    {pre : Option String} {a : FnAnalysis} (h : analyzeForeignFn env s name f soph pre = .done (s', a, n))
    {w : CppFunction} (hw : a.cppWrapper = some w) :
    w.wrapperFunctionName = a.cxxbridgeName ∧
      (∀ p, f.syntheticCpp = some p → (w.payload, w.kind) = p) ∧
      (f.syntheticCpp = none →
        WrapperDoes name.name.ns (name.cppName.getD a.rustName) a.kind w.payload w.kind) := by
  obtain ⟨t⟩ := analyze_steps h
  obtain ⟨wr, final, _, _, _, _, _, _, ha⟩ := finish_inv t.hfin
  rw [ha] at hw
  dsimp only at hw
  cases wr with
  | false => simp at hw
  | true =>
    simp only [if_true, Option.some.injEq] at hw
    have hk : a.kind = t.kn.kind := congrArg FnAnalysis.kind ha
    have hr : a.rustName = t.kn.rustName := congrArg FnAnalysis.rustName ha
    have hb : a.cxxbridgeName = final := congrArg FnAnalysis.cxxbridgeName ha
    rw [← hw, hk, hr, hb]
    refine ⟨rfl, fun p hp => by simp only [wrapperPayload, hp], fun hp => ?_⟩
    simp only [wrapperPayload, hp]
    cases hk : t.kn.kind with
    | function => exact .function
    | method k q =>
      cases k with
      | constructor b => exact .construct
      | static => exact .static
      | normal => exact .method (by simp) (by simp)
      | «virtual» r => exact .method (by simp) (by simp)
      | pureVirtual r => exact .method (by simp) (by simp)
    | traitMethod k q d =>
      cases k with
      | copyConstructor => exact .copy
      | moveConstructor => exact .move
      | destructor => exact .destroy
      | cast => exact .trait (.inl rfl)
      | alloc => exact .trait (.inr (.inl rfl))
      | dealloc => exact .trait (.inr (.inr rfl))

end Verif
