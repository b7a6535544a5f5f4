import Verif.SubFnProps
import Verif.FnPanicProps
import Verif.FnNamesProps

/-!
# C66, C69: the methods of the trait a subclass implements

Where they come from, when they are `unsafe`, and when they take an object which can be changed.
-/

set_option autoImplicit false

namespace Verif

/-- What is bound as a pure virtual method is bound as a virtual one. -/
theorem pure_virtual {k : FnKind} (h : k.isPure = true) : ∃ x, k.virtualOf = some x := by
  unfold FnKind.isPure at h
  split at h
  · exact ⟨_, rfl⟩
  · cases h

/-- What belongs to a class and has no special treatment is bound as a method. -/
theorem decideKind_method {env : FnEnv} {s s2 : FnState} {ns : List String} {f : FuncToConvert} {ideal : String}
    {pre : Option String} {self : QName} {st : Bool} {recv : Option ReceiverMutability} {second : Bool}
    {kn : KindAndName} (h : decideKind env s ns f ideal pre (some self) st recv second = .done (s2, kn))
    (hf : OrdinaryFn f) : ∃ k q, kn.kind = .method k q := by
  obtain ⟨h0, h1, h2, h3⟩ := hf
  unfold decideKind at h
  rw [h0] at h
  dsimp only at h
  split at h
  · exact absurd ‹_› h1
  · exact absurd ‹_› h2
  · exact absurd ‹_› h3
  · unfold plainMethodKind at h
    split at h
    · cases h; exact ⟨_, _, rfl⟩
    · split at h
      · cases h; exact ⟨_, _, rfl⟩
      · split at h
        · cases h
        · cases h; exact ⟨_, _, rfl⟩

/-! ## What is made for one method -/

/-- What is made for the subclasses of the class of one method: functions C++ calls, and a method of the trait. -/
def MadeForMethod (policy : UnsafePolicy) (simple : FnAnalysis) (n : ApiName) (recv : ReceiverMutability) (sup tn : QName) :
    FnPre1Api → Prop
  | .rustSubclassFn x sub d => ∃ deps, deps.head? = some tn ∧
      (.rustSubclassFn x sub d : FnPre1Api) = subclassFunction policy sub simple n recv sup deps
  | .subclassTraitItem x m =>
    (.subclassTraitItem x m : FnPre1Api) = subclassTraitItem policy tn simple recv sup simple.kind.isPure
  | _ => True

theorem madeFor_push {policy : UnsafePolicy} {simple : FnAnalysis} {n : ApiName} {recv : ReceiverMutability} {sup tn : QName}
    {v : ApiVec TypedefAnalysis PodAnalysis FnAnalysis} (hi : v.Inv) (h : ∀ x ∈ v.apis, MadeForMethod policy simple n recv sup tn x)
    {a : FnPre1Api} (ha : MadeForMethod policy simple n recv sup tn a) :
    (v.push a).Inv ∧ ∀ x ∈ (v.push a).apis, MadeForMethod policy simple n recv sup tn x := by
  refine ⟨ApiVec.push_inv hi a, fun x hx => ?_⟩
  rcases mem_push hi hx with hx | rfl | rfl
  · exact h x hx
  · exact ha
  · exact trivial

theorem forSubclass_madeFor {env : FnEnv} {f : FuncToConvert} {a simple : FnAnalysis} {n : ApiName}
    {recv : ReceiverMutability} {sup : QName} {sub : ApiName} {s s' : FnState}
    {v v' : ApiVec TypedefAnalysis PodAnalysis FnAnalysis} (h : forSubclass env f a simple n recv sup sub s v = .done (s', v'))
    (hi : v.Inv) (hm : ∀ x ∈ v.apis, MadeForMethod env.policy simple n recv sup (traitApiName sup a.rustName) x) :
    v'.Inv ∧ ∀ x ∈ v'.apis, MadeForMethod env.policy simple n recv sup (traitApiName sup a.rustName) x := by
  rw [forSubclass] at h
  obtain ⟨⟨s1, v1, deps⟩, h1, h⟩ := PassRun.bind_done.1 h
  have hstep : (v1.Inv ∧ ∀ x ∈ v1.apis, MadeForMethod env.policy simple n recv sup (traitApiName sup a.rustName) x) ∧
      deps.head? = some (traitApiName sup a.rustName) := by
    split at h1
    · cases h1
      exact ⟨⟨hi, hm⟩, rfl⟩
    · obtain ⟨⟨s2, v2, q⟩, h2, h1⟩ := PassRun.bind_done.1 h1
      cases h1
      rw [analyzeAndAdd] at h2
      obtain ⟨⟨s3, a3, n3⟩, h3, h2⟩ := PassRun.bind_done.1 h2
      cases h2
      exact ⟨madeFor_push hi hm trivial, rfl⟩
  obtain ⟨⟨hi1, hm1⟩, hd⟩ := hstep
  have hp := madeFor_push hi1 hm1 (a := subclassFunction env.policy sub simple n recv sup deps) ⟨deps, hd, rfl⟩
  dsimp only at h
  split at h
  · cases h
    exact hp
  · cases h
    exact madeFor_push hp.1 hp.2 rfl

theorem forSubclasses_madeFor {env : FnEnv} {f : FuncToConvert} {a simple : FnAnalysis} {n : ApiName}
    {recv : ReceiverMutability} {sup : QName} : ∀ {subs : List ApiName} {s s' : FnState}
    {v v' : ApiVec TypedefAnalysis PodAnalysis FnAnalysis}, forSubclasses env f a simple n recv sup subs s v = .done (s', v') →
    v.Inv → (∀ x ∈ v.apis, MadeForMethod env.policy simple n recv sup (traitApiName sup a.rustName) x) →
    v'.Inv ∧ ∀ x ∈ v'.apis, MadeForMethod env.policy simple n recv sup (traitApiName sup a.rustName) x
  | [], s, s', v, v', h, hi, hm => by cases h; exact ⟨hi, hm⟩
  | sub :: l, s, s', v, v', h, hi, hm => by
    rw [forSubclasses] at h
    obtain ⟨⟨s1, v1⟩, h1, h⟩ := PassRun.bind_done.1 h
    have := forSubclass_madeFor h1 hi hm
    exact forSubclasses_madeFor h this.1 this.2

/-- The virtual method what is made for subclasses is made for. -/
theorem made_for_virtual {env : FnEnv} {s s' : FnState} {name : ApiName} {f : FuncToConvert} {l : List FnPre1Api}
    (h : analyzeFnAndSubclasses env s name f = .done (s', l)) {y : FnPre1Api} (hy : y ∈ l)
    (hk : (∃ n sub d, y = .rustSubclassFn n sub d) ∨ ∃ n m, y = .subclassTraitItem n m) :
    ∃ s1 a n sup recv simple, analyzeForeignFn env s name f .regular none = .done (s1, a, n) ∧
      a.kind.virtualOf = some (sup, recv) ∧
      ∀ x ∈ l, MadeForMethod env.policy simple n recv sup (traitApiName sup a.rustName) x := by
  rw [analyzeFnAndSubclasses] at h
  obtain ⟨⟨s1, a, n1⟩, h1, h⟩ := PassRun.bind_done.1 h
  dsimp only at h
  split at h
  · cases h
    cases List.mem_singleton.1 hy
    rcases hk with ⟨_, _, _, e⟩ | ⟨_, _, e⟩ <;> cases e
  · rename_i sup recv hv
    obtain ⟨⟨s2, simple, n2⟩, -, h⟩ := PassRun.bind_done.1 h
    obtain ⟨⟨s3, v⟩, h3, h⟩ := PassRun.bind_done.1 h
    cases h
    have hm := forSubclasses_madeFor h3 ApiVec.inv_empty (fun x hx => by cases hx)
    exact ⟨s1, a, n1, sup, recv, simple, h1, hv, (madeFor_push hm.1 hm.2 (a := .function n1 f a) trivial).2⟩

/-- **C66, C69**: what is made for one virtual method agrees, for all subclasses: a function C++ calls and the method of the
trait which that function calls have the same name, the same parameters but for the first, the same result, and are
`unsafe`, change their object and are pure virtual alike; and the function asks for the method to be there. -/
theorem override_agrees {env : FnEnv} {s s' : FnState} {name : ApiName} {f : FuncToConvert} {l : List FnPre1Api}
    (h : analyzeFnAndSubclasses env s name f = .done (s', l)) {n sub tn : ApiName} {d : RustSubclassFnDetails}
    {m : SuperclassMethod} (h1 : .rustSubclassFn n sub d ∈ l) (h2 : .subclassTraitItem tn m ∈ l) :
    d.methodName = m.name ∧ d.superclass = m.receiver ∧ d.params.drop 1 = m.params.drop 1 ∧ d.ret = m.retType ∧
      d.requiresUnsafe = m.requiresUnsafe ∧ d.receiverMutability = m.receiverMutability ∧
      d.isPureVirtual = m.isPureVirtual ∧ tn.name ∈ d.dependencies := by
  obtain ⟨s1, a, n1, sup, recv, simple, -, -, hp⟩ := made_for_virtual h h1 (.inl ⟨_, _, _, rfl⟩)
  obtain ⟨deps, hd, e1⟩ := hp _ h1
  have e2 := hp _ h2
  obtain ⟨-, -, rfl⟩ := Api.rustSubclassFn.inj e1
  obtain ⟨rfl, rfl⟩ := Api.subclassTraitItem.inj e2
  exact ⟨rfl, rfl, rfl, rfl, rfl, rfl, rfl, List.mem_of_head? hd⟩

/-- What a pass makes is made by one of its steps. -/
theorem fnSteps_step {env : FnEnv} {s' : FnState} : ∀ {l : List PodApi} {s : FnState} {out : List FnPre1Api},
    fnSteps env s l = .done (s', out) → ∃ steps : List (PodApi × FnState × FnState × List FnPre1Api),
      steps.map (·.1) = l ∧ out = steps.flatMap (·.2.2.2) ∧
      ∀ x ∈ steps, fnStep env x.2.1 x.1 = .done (x.2.2.1, x.2.2.2)
  | [], s, out, h => by cases h; exact ⟨[], rfl, rfl, by simp⟩
  | a :: l, s, out, h => by
    rw [fnSteps] at h
    obtain ⟨⟨s1, r⟩, h1, h⟩ := PassRun.bind_done.1 h
    obtain ⟨⟨s2, r'⟩, h2, h⟩ := PassRun.bind_done.1 h
    cases h
    obtain ⟨steps, e1, e2, e3⟩ := fnSteps_step h2
    refine ⟨(a, s, s1, r) :: steps, by rw [List.map_cons, e1], by rw [List.flatMap_cons, e2], ?_⟩
    intro x hx
    rcases List.mem_cons.1 hx with rfl | hx
    · exact h1
    · exact e3 x hx

/-- What is made for subclasses comes of the step for a function. -/
theorem fnStep_function {env : FnEnv} {s s' : FnState} {x : PodApi} {o : List FnPre1Api} {y : FnPre1Api}
    (h : fnStep env s x = .done (s', o)) (hy : y ∈ o)
    (hk : (∃ n sub d, y = .rustSubclassFn n sub d) ∨ ∃ n m, y = .subclassTraitItem n m) (hx : ∀ n sub d, x ≠ .rustSubclassFn n sub d)
    (hx' : ∀ n m, x ≠ .subclassTraitItem n m) :
    ∃ n f u, x = .function n f u ∧ analyzeFnAndSubclasses env s n f = .done (s', o) := by
  cases x with
  | function n f u => exact ⟨n, f, u, rfl, h⟩
  | rustSubclassFn n sub d => exact absurd rfl (hx n sub d)
  | subclassTraitItem n m => exact absurd rfl (hx' n m)
  | _ =>
    cases h
    cases List.mem_singleton.1 hy
    rcases hk with ⟨_, _, _, e⟩ | ⟨_, _, e⟩ <;> cases e

/-- **C66, C69 (partial)**: in a whole pass, a function C++ calls and the method of a trait it asks for agree as
`override_agrees` says, unless there are two virtual methods, at different places of the list, whose trait methods are given
the same name. What is missing is that there are none such, which is false: see `override_without_trait_method_false`. -/
theorem pass_agrees_partial {env : FnEnv} {s s' : FnState} {l : List PodApi} {out : List FnPre1Api}
    (h : fnSteps env s l = .done (s', out)) (hl : ∀ n sub d, .rustSubclassFn n sub d ∉ l)
    (hl' : ∀ n m, .subclassTraitItem n m ∉ l) {n sub tn : ApiName} {d : RustSubclassFnDetails} {m : SuperclassMethod}
    (h1 : .rustSubclassFn n sub d ∈ out) (h2 : .subclassTraitItem tn m ∈ out) (hd : d.dependencies.head? = some tn.name) :
    (d.methodName = m.name ∧ d.superclass = m.receiver ∧ d.params.drop 1 = m.params.drop 1 ∧ d.ret = m.retType ∧
      d.requiresUnsafe = m.requiresUnsafe ∧ d.receiverMutability = m.receiverMutability ∧
      d.isPureVirtual = m.isPureVirtual) ∨
    ∃ n1 f1 u1 s1 r1 a1 m1 sup1 recv1 n2 f2 u2 s2 r2 a2 m2 sup2 recv2,
      ([Api.function n1 f1 u1, .function n2 f2 u2].Sublist l ∨ [Api.function n2 f2 u2, .function n1 f1 u1].Sublist l) ∧
      analyzeForeignFn env s1 n1 f1 .regular none = .done (r1, a1, m1) ∧
      analyzeForeignFn env s2 n2 f2 .regular none = .done (r2, a2, m2) ∧
      a1.kind.virtualOf = some (sup1, recv1) ∧ a2.kind.virtualOf = some (sup2, recv2) ∧
      traitApiName sup1 a1.rustName = traitApiName sup2 a2.rustName := by
  obtain ⟨steps, e1, rfl, e3⟩ := fnSteps_step h
  obtain ⟨x, hx, hxo⟩ := List.mem_flatMap.1 h1
  obtain ⟨y, hy, hyo⟩ := List.mem_flatMap.1 h2
  have hmem : ∀ z ∈ steps, z.1 ∈ l := fun z hz => e1 ▸ List.mem_map.2 ⟨z, hz, rfl⟩
  obtain ⟨n1, f1, u1, hf1, ha1⟩ := fnStep_function (e3 x hx) hxo (.inl ⟨_, _, _, rfl⟩)
    (fun _ _ _ e => hl _ _ _ (e ▸ hmem x hx)) (fun _ _ e => hl' _ _ (e ▸ hmem x hx))
  obtain ⟨n2, f2, u2, hf2, ha2⟩ := fnStep_function (e3 y hy) hyo (.inr ⟨_, _, rfl⟩)
    (fun _ _ _ e => hl _ _ _ (e ▸ hmem y hy)) (fun _ _ e => hl' _ _ (e ▸ hmem y hy))
  obtain ⟨r1, a1, m1, sup1, recv1, simple1, hb1, hv1, hp1⟩ := made_for_virtual ha1 hxo (.inl ⟨_, _, _, rfl⟩)
  obtain ⟨r2, a2, m2, sup2, recv2, simple2, hb2, hv2, hp2⟩ := made_for_virtual ha2 hyo (.inr ⟨_, _, rfl⟩)
  have hname : traitApiName sup1 a1.rustName = traitApiName sup2 a2.rustName := by
    obtain ⟨deps, hh, e⟩ := hp1 _ hxo
    have e' := hp2 _ hyo
    obtain ⟨-, -, rfl⟩ := Api.rustSubclassFn.inj e
    obtain ⟨rfl, -⟩ := Api.subclassTraitItem.inj e'
    exact Option.some.inj (hh.symm.trans hd)
  obtain ⟨p1, p2, rfl⟩ := List.append_of_mem hx
  rcases List.mem_append.1 hy with hy | hy
  · refine .inr ⟨n1, f1, u1, _, r1, a1, m1, sup1, recv1, n2, f2, u2, _, r2, a2, m2, sup2, recv2, .inr ?_, hb1, hb2, hv1, hv2,
      hname⟩
    rw [← e1, List.map_append, List.map_cons, hf1]
    exact (List.singleton_sublist.2 (List.mem_map.2 ⟨y, hy, hf2⟩)).append
      (List.singleton_sublist.2 List.mem_cons_self)
  · rcases List.mem_cons.1 hy with rfl | hy
    · obtain ⟨g1, g2, g3, g4, g5, g6, g7, -⟩ := override_agrees ha1 hxo hyo
      exact .inl ⟨g1, g2, g3, g4, g5, g6, g7⟩
    · refine .inr ⟨n1, f1, u1, _, r1, a1, m1, sup1, recv1, n2, f2, u2, _, r2, a2, m2, sup2, recv2, .inl ?_, hb1, hb2, hv1,
        hv2, hname⟩
      rw [← e1, List.map_append, List.map_cons, hf1]
      exact (List.Sublist.cons_cons _ (List.singleton_sublist.2 (List.mem_map.2 ⟨y, hy, hf2⟩))).trans
        (List.sublist_append_right _ _)

variable {fuel : Nat} {hash : Config → Nat} {sigOf : RustSig → RustFnSig} {policy : UnsafePolicy} {cfg : Config}
  {force : Bool} {cb : Callbacks} {items : List BindgenItem} {out : FnApiVec}
  (p : ConvertStages fuel hash sigOf policy cfg force cb items out)
include p

namespace ConvertStages

/-- A method of such a trait is made from two analyses of a virtual method: the first gave it its name, the second is for
subclasses. -/
theorem trait_from {n : ApiName} {m : SuperclassMethod} (h : .subclassTraitItem n m ∈ out.apis) :
    ∃ env, env.policy = policy ∧ ∃ s s' f soph pre name n' a recv sup, ∃ s2 s2' n2 a2,
      analyzeForeignFn env s name f soph pre = .done (s', a, n') ∧ a.kind.virtualOf = some (sup, recv) ∧
      analyzeForeignFn env s2 n' f .simpleForSubclasses (some a.rustName) = .done (s2', a2, n2) ∧ ¬ a2.kind.OfTrait ∧
      (Api.subclassTraitItem n m : FnPre1Api) =
        subclassTraitItem policy (traitApiName sup a.rustName) a2 recv sup a2.kind.isPure := by
  rcases p.delivered_reachable h with ⟨_, _, e⟩ | ⟨z, hz, -, e, -⟩
  · cases e
  · rcases e with rfl | e
    · obtain ⟨-, -, x, hx, hs, -⟩ := p.item_origin hz rfl
      obtain ⟨q⟩ := p.fn_stages
      have hpol : q.env.policy = policy := by
        have e := q.henv
        rw [FnEnv.ofApis] at e
        obtain ⟨_, -, e⟩ := Option.bind_eq_some_iff.1 e
        obtain ⟨_, -, e⟩ := Option.map_eq_some_iff.1 e
        exact (congrArg FnEnv.policy (Prod.mk.inj e).1).symm
      have ho := items_from q hx
      cases ho with
      | @kept w hw hf =>
        exfalso
        rw [shape_map] at hs
        rcases p.allocs_from w hw with h | h | ⟨a, ha, has⟩
        · cases w <;> first | (cases h; done) | cases hs
        · cases h <;> cases hs
        · have h1 := parsed_kinds p.hparse ha
          have h2 := has.trans hs
          cases a <;> first | (cases h2; done) | exact h1
      | fn => cases hs
      | override_ => cases hs
      | @trait_ r r2 hr hr2 sup recv hv sub' hsub ha =>
        obtain ⟨e1, e2, e3, e4⟩ := ha
        have hok := q.trace.ok r2 hr2
        rw [FnRun.Ok, e1, e2, e3, e4] at hok
        refine ⟨q.env, hpol, _, _, _, _, _, _, _, r.a, recv, sup, _, _, _, r2.a, q.trace.ok r hr, hv, hok, ?_, ?_⟩
        · obtain ⟨t⟩ := analyze_steps (q.trace.ok r hr)
          obtain ⟨t2⟩ := analyze_steps hok
          rw [t2.kind_eq]
          rw [t.kind_eq] at hv
          exact decideKind_ordinary t2.hkind (decideKind_virtual t.hkind hv)
        · rw [hpol] at hs
          rw [withConstructors_eq] at hs
          cases hs
          rfl
      | inst => cases hs
      | marker h => rw [h] at hs; cases hs
    · cases e

/-- **C66, C69 (partial)**: the method of the trait which stands for a virtual method is `unsafe` if all functions are to
be, or the method was found to take a raw pointer; so it is `unsafe` if it takes one, unless that is the form in which the
bridge hands over something else, as `override_pointer_false` shows for what C++ calls. It takes an object which can be
changed exactly if the virtual method does: if its `this` points to something which is not `const`. It has to be written by
the subclass only if the method is pure virtual. Its name is the one the method was given, if bindgen
says which class the method belongs to. -/
theorem trait_method_partial {n : ApiName} {m : SuperclassMethod} (h : .subclassTraitItem n m ∈ out.apis) :
    ∃ (f : FuncToConvert) (a : FnAnalysis), m.params = a.params ∧ m.retType = a.retType ∧
      m.paramNames = a.paramDetails.map (·.name) ∧
      (m.requiresUnsafe.wrapperToken = true ↔
        policy = .allFunctionsUnsafe ∨ ∃ x ∈ a.paramDetails, x.requiresUnsafe = .always) ∧
      (∀ x ∈ a.paramDetails, ¬ x.Hidden → x.RawPointer → m.requiresUnsafe.wrapperToken = true) ∧
      (∀ t ∈ m.params, ∀ mu e, t.type = .ptr mu e → m.requiresUnsafe.wrapperToken = true ∨
        ∃ x ∈ a.paramDetails, x.conversion.convertedRustType = .ptr mu e ∧
          (x.conversion.bridgeUnsafeNeeded = true ∨ x.isPlacementReturnDestination = true)) ∧
      (f.virtualness = some .virtual ∨ f.virtualness = some .pureVirtual) ∧
      (m.isPureVirtual = true → f.virtualness = some .pureVirtual) ∧
      (∃ mu t, .typed "this" (.ptr mu t) ∈ f.inputs ∧ (m.receiverMutability = .mutable ↔ mu = true)) ∧
      ∃ rust, n.name = ⟨m.receiver.ns, m.receiver.name ++ "_" ++ rust ++ "_trait_item"⟩ ∧
        (f.selfTy ≠ none → m.name = rust) := by
  obtain ⟨env, hpol, s, s', f, soph, pre, name, n', a1, recv, sup, s2, s2', n2, a, han1, hv, han, hk, e⟩ := p.trait_from h
  obtain ⟨rfl, rfl⟩ := Api.subclassTraitItem.inj e
  obtain ⟨t⟩ := analyze_steps han
  have hu : (subclassUnsafety policy a).wrapperToken = true ↔
      policy = .allFunctionsUnsafe ∨ ∃ x ∈ a.paramDetails, x.requiresUnsafe = .always := by
    have hf := fromParams_always a.paramDetails false
    simp only [Bool.false_eq_true, false_implies, and_true] at hf
    rw [← hf, subclassUnsafety]
    split
    · rename_i hp; simp [hp, UnsafetyNeeded.wrapperToken]
    · rename_i hp
      cases UnsafetyNeeded.fromParams a.paramDetails false <;> simp [hp, UnsafetyNeeded.wrapperToken]
  obtain ⟨hvir, mu, ty, hm, hrec⟩ := virtual_object han1 hv
  refine ⟨f, a, rfl, rfl, rfl, hu, fun x hx hh hr => ?_, fun y hy mu el hty => ?_, ?_, fun hp => ?_,
    ⟨mu, ty, hm, hrec⟩, a1.rustName, rfl, fun hself => ?_⟩
  · refine hu.2 (.inr ⟨x, hx, ?_⟩)
    rw [t.details_eq] at hx
    obtain ⟨q, hq, rfl⟩ := List.mem_map.1 hx
    obtain ⟨_, _, _, m, i, hc, h1, h2, _⟩ := t.plain hk q hq
    exact (param_unsafe_iff hc h1 h2 hh).2 hr
  · have hin : .ptr mu el ∈ a.params.map FnArg.type := List.mem_map.2 ⟨y, hy, hty⟩
    rw [bridge_params_agree han] at hin
    obtain ⟨x, hx, hxt⟩ := List.mem_map.1 hin
    have hx' := hx
    rw [t.details_eq] at hx'
    obtain ⟨q, hq, rfl⟩ := List.mem_map.1 hx'
    obtain ⟨_, _, _, m, i, hc, h1, h2, _⟩ := t.plain hk q hq
    have hne := pointer_param_unsafe hc h1 hxt
    cases hr : q.2.requiresUnsafe with
    | none => exact absurd hr hne
    | always => exact .inl (hu.2 (.inr ⟨_, hx, hr⟩))
    | justBridge => exact .inr ⟨_, hx, hxt, justBridge_converted hc hr⟩
  · exact hvir.imp And.left And.left
  · obtain ⟨x, hx⟩ := pure_virtual hp
    obtain ⟨hvir2, -⟩ := virtual_object han hx
    rcases hvir2 with ⟨-, h2⟩ | ⟨h1, -⟩
    · have hp : a.kind.isPure = true := hp
      rw [hp] at h2
      cases h2
    · exact h1
  · obtain ⟨t1⟩ := analyze_steps han1
    obtain ⟨k, q, hq⟩ : ∃ k q, a.kind = .method k q := by
      rw [t.kind_eq]
      rw [t1.kind_eq] at hv
      have hk := t.hkind
      cases hsp : selfOfParams t.ps with
      | some x =>
        rw [hsp] at hk
        exact decideKind_method hk (decideKind_virtual t1.hkind hv)
      | none =>
        rw [hsp] at hk
        cases hfs : f.selfTy with
        | none => exact absurd hfs hself
        | some y =>
          rw [hfs] at hk
          exact decideKind_method hk (decideKind_virtual t1.hkind hv)
    rcases asks_name (env := env) (r := ⟨s2, n', f, .simpleForSubclasses, some a1.rustName, s2', a, n2⟩) han with
      ⟨h, -⟩ | ⟨w, h, -⟩
    · cases h with
      | settled hp => exact (Option.some.inj hp).symm
    · cases h with
      | free hk => cases hq.symm.trans hk
      | cast hk => cases hq.symm.trans hk
      | storage hk => cases hq.symm.trans hk
      | member _ _ _ hp => cases hp

end ConvertStages
end Verif
