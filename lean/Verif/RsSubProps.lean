import Verif.RsUnsafeProps
import Verif.RsSigProps

/-!
# C66, C69: the code for subclasses

When the C++ side of a subclass can be made without being told how, and when the functions C++ calls are `unsafe`.
-/

set_option autoImplicit false

namespace Verif

section
variable {hash : Config → Nat} {policy : UnsafePolicy} {cfg : Config} {includes : List String} {headerName : Option String}
  {apis : List FnApi} {f : RsFile}

/-! ## Making the C++ side -/

/-- A constructor of the C++ side of a subclass; `trivial` if it takes nothing but the Rust side. -/
def SubclassCtor (apis : List FnApi) (sub : QName) (trivial : Bool) : Prop :=
  ∃ n g an s impl, .function n g an ∈ apis ∧ g.provenance = .synthesizedSubclassConstructor s trivial impl ∧ s.name = sub

theorem mem_subclassCtorsIn (sub : QName) (trivial : Bool) :
    (sub, trivial) ∈ subclassCtorsIn apis ↔ SubclassCtor apis sub trivial := by
  constructor
  · intro h
    obtain ⟨a, ha, h⟩ := List.mem_filterMap.1 h
    cases a with
    | function n g an =>
      dsimp only at h
      split at h
      · rename_i s t impl hp
        cases h
        exact ⟨n, g, an, s, impl, ha, hp, rfl⟩
      · cases h
    | _ => cases h
  · rintro ⟨n, g, an, s, impl, ha, hp, rfl⟩
    refine List.mem_filterMap.2 ⟨_, ha, ?_⟩
    dsimp only
    rw [hp]

theorem mem_triviallyConstructed (sub : QName) :
    sub ∈ triviallyConstructed apis ↔ SubclassCtor apis sub true ∧ ¬ SubclassCtor apis sub false := by
  rw [← mem_subclassCtorsIn, ← mem_subclassCtorsIn, triviallyConstructed]
  simp [List.partition_eq_filter_filter]

/-- **C66**: autocxx provides how to make the C++ side of a subclass exactly if all functions are safe, and it has a
constructor, and all its constructors need nothing but the Rust side. -/
theorem peer_constructor_iff (hI : CodegenItems hash cfg apis)
    (h : generateRsCode hash policy cfg includes headerName apis = some f) (p : List String) (peer sub : Ident)
    (path : List String) :
    f.Has p (.peerConstructor peer sub path) ↔
      p = [] ∧ policy = .allFunctionsSafe ∧ ∃ n sup, .subclass n sup ∈ apis ∧ sub = n.name.name ∧
        peer = n.name.name ++ "Cpp" ∧ path = n.cppPeer.toTypePath ∧
        SubclassCtor apis n.name true ∧ ¬ SubclassCtor apis n.name false := by
  obtain ⟨codes, P⟩ := rs_parts h
  rw [P.has_iff]
  constructor
  · rintro ⟨a, ha, rfl, c, hc, hi⟩
    have hcode := item_code hc
    cases hcode with
    | @type _ _ _ _ traits _ ht hs hk =>
      exfalso
      have hnt : .peerConstructor peer sub path ∉ traits := fun hx => by
        obtain ⟨_, _, _, e⟩ := traits_only hs hx
        cases e
      cases hk <;> simp [hnt] at hi
    | makeString _ e => simp at hi
    | fn n g an r e hr =>
      obtain ⟨y, -, hy⟩ := List.mem_map.1 hi
      cases y <;> cases hy
    | bindgen e => simp at hi
    | ctype n q e => cases hi
    | rustType n s q e | rustFn n s q e => cases hi
    | subclassFn n sub d c e hg =>
      obtain ⟨_, _, -, -, rfl⟩ := subclassFn_code hg
      cases hi
    | externCpp n q o x e hx hn => simp at hi
    | failed n err ctx e => cases ctx <;> simp [errorEntry] at hi
    | nothing e => cases hi
    | subclass n sup c e hg =>
      subst e
      obtain ⟨supers, hs, -, -, -, -, -, -, hit⟩ := subclass_code hg
      rw [hit] at hi
      simp only [List.cons_append, List.nil_append, List.mem_cons, List.mem_append, reduceCtorEq, false_or, or_false,
        List.not_mem_nil] at hi
      rcases hi with hi | hi
      · obtain ⟨_, _, _, e⟩ := supers_only hs hi
        cases e
      · split at hi
        · rename_i hb
          rw [Bool.and_eq_true, decide_eq_true_eq, decide_eq_true_eq] at hb
          rw [List.mem_singleton] at hi
          obtain ⟨rfl, rfl, rfl⟩ := OutDecl.peerConstructor.inj hi
          obtain ⟨h1, h2⟩ := (mem_triviallyConstructed _).1 hb.1
          exact ⟨hI.subs n sup ha, hb.2, n, sup, ha, rfl, rfl, rfl, h1, h2⟩
        · cases hi
  · rintro ⟨rfl, hp, n, sup, ha, rfl, rfl, rfl, h1, h2⟩
    obtain ⟨c, -, hc⟩ := P.each.left ha
    refine ⟨_, ha, hI.subs n sup ha, c, hc, ?_⟩
    rw [genApi] at hc
    obtain ⟨supers, hs, -, -, -, -, -, -, hit⟩ := subclass_code hc
    rw [hit, if_pos]
    · simp only [List.mem_append, List.mem_singleton]
      exact .inl (.inr rfl)
    · rw [Bool.and_eq_true, decide_eq_true_eq, decide_eq_true_eq]
      exact ⟨(mem_triviallyConstructed _).2 ⟨h1, h2⟩, hp⟩

end

/-! ## Functions C++ calls -/

/-- A parameter which asks nothing of anyone but the bridge is one the bridge hands over in another form than Rust code
does, or the place for the result. -/
theorem justBridge_converted {env : FnEnv} {s s' : FnState} {ns : List String} {diag : QName} {m : ArgMode} {i : FnArg}
    {p : FnArg × ArgumentAnalysis} (h : convertFnArg env s ns diag m i = .done (s', .ok p))
    (hu : p.2.requiresUnsafe = .justBridge) :
    p.2.conversion.bridgeUnsafeNeeded = true ∨ p.2.isPlacementReturnDestination = true := by
  obtain ⟨nm, ty, self, into, hp, h⟩ := convertFnArg_ok h
  obtain ⟨st, a, conv, hc, _, hv, rfl⟩ := convertNamedArg_ok h
  change argUnsafety a.kind conv _ = _ at hu
  rw [argUnsafety] at hu
  split at hu
  · cases hu
  · split at hu
    · assumption
    · cases hu

/-- A function which is neither for a trait nor a special member that becomes one. -/
def OrdinaryFn (f : FuncToConvert) : Prop :=
  f.addToTrait = none ∧ f.specialMember ≠ some .moveConstructor ∧ f.specialMember ≠ some .copyConstructor ∧
    f.specialMember ≠ some .destructor

theorem plainKind_plain {env : FnEnv} {s s2 : FnState} {ns : List String} {f : FuncToConvert} {selfTy : QName}
    {nested ideal : String} {pre : Option String} {st : Bool} {recv : Option ReceiverMutability} {kn : KindAndName}
    (h : plainMethodKind env s ns f selfTy nested ideal pre st recv = .done (s2, kn)) : ¬ kn.kind.OfTrait := by
  unfold plainMethodKind at h
  split at h
  · cases h; exact id
  · split at h
    · cases h; exact id
    · split at h
      · cases h
      · cases h; exact id

theorem decideKind_virtual {env : FnEnv} {s s2 : FnState} {ns : List String} {f : FuncToConvert} {ideal : String}
    {pre : Option String} {self : Option QName} {st : Bool} {recv : Option ReceiverMutability} {second : Bool}
    {kn : KindAndName} (h : decideKind env s ns f ideal pre self st recv second = .done (s2, kn))
    {x : QName × ReceiverMutability} (hv : kn.kind.virtualOf = some x) : OrdinaryFn f := by
  unfold decideKind at h
  split at h
  · rename_i t _
    unfold traitKind at h
    split at h
    · split at h
      · cases h
      · cases h; cases hv
    · cases h; cases hv
    · cases h; cases hv
  · rename_i ht
    split at h
    · dsimp only at h
      split at h
      · cases h; cases hv
      · have h := congrArg Prod.snd (PassRun.done.inj h)
        dsimp only at h
        rw [← h] at hv
        cases second <;> cases hv
      · cases h; cases hv
      · rename_i h1 h2 h3
        exact ⟨ht, h1, h2, h3⟩
    · cases h; cases hv

theorem decideKind_ordinary {env : FnEnv} {s s2 : FnState} {ns : List String} {f : FuncToConvert} {ideal : String}
    {pre : Option String} {self : Option QName} {st : Bool} {recv : Option ReceiverMutability} {second : Bool}
    {kn : KindAndName} (h : decideKind env s ns f ideal pre self st recv second = .done (s2, kn)) (hf : OrdinaryFn f) :
    ¬ kn.kind.OfTrait := by
  obtain ⟨h0, h1, h2, h3⟩ := hf
  unfold decideKind at h
  rw [h0] at h
  dsimp only at h
  split at h
  · split at h
    · exact absurd ‹_› h1
    · exact absurd ‹_› h2
    · exact absurd ‹_› h3
    · exact plainKind_plain h
  · cases h; exact id

section
variable {fuel : Nat} {hash : Config → Nat} {sigOf : RustSig → RustFnSig} {policy : UnsafePolicy} {cfg : Config}
  {force : Bool} {cb : Callbacks} {items : List BindgenItem} {out : FnApiVec}
  (p : ConvertStages fuel hash sigOf policy cfg force cb items out)
include p

namespace ConvertStages

/-- A function C++ calls for a virtual method is made from an analysis of that method, which is not that of a trait. -/
theorem override_from {n sub : ApiName} {d : RustSubclassFnDetails} (h : .rustSubclassFn n sub d ∈ out.apis) :
    ∃ env, env.policy = policy ∧ ∃ s s' f name n' pre a recv sup deps,
      analyzeForeignFn env s name f .simpleForSubclasses pre = .done (s', a, n') ∧ ¬ a.kind.OfTrait ∧
      (Api.rustSubclassFn n sub d : FnPre1Api) = subclassFunction policy sub a name recv sup deps := by
  rcases p.delivered_reachable h with ⟨_, _, e⟩ | ⟨z, hz, -, e, -⟩
  · cases e
  · rcases e with rfl | e
    · obtain ⟨-, -, x, hx, hs, -⟩ := p.item_origin hz rfl
      obtain ⟨q⟩ := p.fn_stages
      have hpol : q.env.policy = policy := by
        have e := q.henv
        rw [FnEnv.ofApis] at e
        obtain ⟨_, -, e⟩ := Option.bind_eq_some_iff.1 e
        obtain ⟨_, -, e⟩ := Option.map_eq_some_iff.1 e
        exact (congrArg FnEnv.policy (Prod.mk.inj e).1).symm
      have ho := items_from q hx
      cases ho with
      | @kept w hw hf =>
        exfalso
        rw [shape_map] at hs
        rcases p.allocs_from w hw with h | h | ⟨a, ha, has⟩
        · cases w <;> first | (cases h; done) | cases hs
        · cases h <;> cases hs
        · have h1 := parsed_kinds p.hparse ha
          have h2 := has.trans hs
          cases a <;> first | (cases h2; done) | exact h1
      | fn => cases hs
      | @override_ r r2 hr hr2 sup recv hv sub' hsub deps ha hd =>
        obtain ⟨e1, e2, e3, e4⟩ := ha
        have hok := q.trace.ok r2 hr2
        rw [FnRun.Ok, e1, e2, e3, e4] at hok
        refine ⟨q.env, hpol, _, _, _, _, _, _, r2.a, recv, sup, deps, hok, ?_, ?_⟩
        · obtain ⟨t⟩ := analyze_steps (q.trace.ok r hr)
          obtain ⟨t2⟩ := analyze_steps hok
          rw [t2.kind_eq]
          rw [t.kind_eq] at hv
          exact decideKind_ordinary t2.hkind (decideKind_virtual t.hkind hv)
        · rw [hpol] at hs
          rw [withConstructors_eq] at hs
          cases hs
          rfl
      | trait_ => cases hs
      | inst => cases hs
      | marker h => rw [h] at hs; cases hs
    · cases e

/-- **C69 (partial)**: a function C++ calls for a virtual method is `unsafe` if all functions are to be, or it was found
to take a raw pointer. So if one of its parameters is a raw pointer – for which `cxx` demands that it is `unsafe` – then
it is, unless this is the form in which the bridge hands over something else. What is missing is that such functions are
`unsafe` too: see `override_pointer_false`. -/
theorem override_unsafe_partial {n sub : ApiName} {d : RustSubclassFnDetails} (h : .rustSubclassFn n sub d ∈ out.apis) :
    ∃ a : FnAnalysis, d.params.drop 1 = a.params.drop 1 ∧
      (d.requiresUnsafe.wrapperToken = true ↔
        policy = .allFunctionsUnsafe ∨ ∃ x ∈ a.paramDetails, x.requiresUnsafe = .always) ∧
      (∀ x ∈ a.paramDetails, ¬ x.Hidden → x.RawPointer → d.requiresUnsafe.wrapperToken = true) ∧
      ∀ t ∈ d.params.drop 1, ∀ mu e, t.type = .ptr mu e → d.requiresUnsafe.wrapperToken = true ∨
        ∃ x ∈ a.paramDetails, x.conversion.convertedRustType = .ptr mu e ∧
          (x.conversion.bridgeUnsafeNeeded = true ∨ x.isPlacementReturnDestination = true) := by
  obtain ⟨env, hpol, s, s', f, name, n', pre, a, recv, sup, deps, han, hk, e⟩ := p.override_from h
  obtain ⟨-, -, rfl⟩ := Api.rustSubclassFn.inj e
  obtain ⟨t⟩ := analyze_steps han
  have hu : (subclassUnsafety policy a).wrapperToken = true ↔
      policy = .allFunctionsUnsafe ∨ ∃ x ∈ a.paramDetails, x.requiresUnsafe = .always := by
    have hf := fromParams_always a.paramDetails false
    simp only [Bool.false_eq_true, false_implies, and_true] at hf
    rw [← hf, subclassUnsafety]
    split
    · rename_i hp; simp [hp, UnsafetyNeeded.wrapperToken]
    · rename_i hp
      cases UnsafetyNeeded.fromParams a.paramDetails false <;> simp [hp, UnsafetyNeeded.wrapperToken]
  refine ⟨a, rfl, hu, fun x hx hh hr => ?_, fun y hy mu el hty => ?_⟩
  · refine hu.2 (.inr ⟨x, hx, ?_⟩)
    rw [t.details_eq] at hx
    obtain ⟨q, hq, rfl⟩ := List.mem_map.1 hx
    obtain ⟨_, _, _, m, i, hc, h1, h2, _⟩ := t.plain hk q hq
    exact (param_unsafe_iff hc h1 h2 hh).2 hr
  · have hy' : y ∈ a.params := List.mem_of_mem_drop hy
    have hin : .ptr mu el ∈ a.params.map FnArg.type := List.mem_map.2 ⟨y, hy', hty⟩
    rw [bridge_params_agree han] at hin
    obtain ⟨x, hx, hxt⟩ := List.mem_map.1 hin
    have hx' := hx
    rw [t.details_eq] at hx'
    obtain ⟨q, hq, rfl⟩ := List.mem_map.1 hx'
    obtain ⟨_, _, _, m, i, hc, h1, h2, _⟩ := t.plain hk q hq
    have hne := pointer_param_unsafe hc h1 hxt
    cases hr : q.2.requiresUnsafe with
    | none => exact absurd hr hne
    | always => exact .inl (hu.2 (.inr ⟨_, hx, hr⟩))
    | justBridge => exact .inr ⟨_, hx, hxt, justBridge_converted hc hr⟩

end ConvertStages
end
end Verif
