import Verif.FnExposedProps
import Verif.FnPassProps
import Verif.RsSubProps

/-!
# What is made for subclasses is offered only if the original can be called

engine/src/conversion/analysis/fun/subclass.rs: the function with which a Rust subclass calls the method of its
superclass, and the constructors of the subclass, are analysed like any other function. Here it is shown that what makes
the method or constructor of the superclass uncallable keeps them from being offered.
-/

set_option autoImplicit false

namespace Verif

/-- **C66 (methods of the superclass)**: the function which calls the method of the superclass is offered only if that
method is not deleted, has a fixed number of parameters, and does not return an rvalue reference; it takes what the method
takes and returns what it returns. -/
theorem super_offered {env : FnEnv} {r : FnRun} {name : ApiName} {sub : ApiName} {q : QName} {f : FuncToConvert}
    {soph : Sophistication} {pre : Option String} (hr : r.Ok env) (ha : r.Asks name (superFnWrapper sub q f) soph pre)
    (hi : r.a.ignoreReason = none) :
    f.isDeleted ≠ some .deleted ∧ f.variadic = false ∧ (∀ t, f.output = some t → typeIsReference t true = false) ∧
      r.f.inputs = f.inputs ∧ r.f.output = f.output ∧ r.a.externallyCallable = true := by
  obtain ⟨-, hf, -, -⟩ := ha
  have ho := exposed_offerable hr hi
  rw [hf] at ho
  refine ⟨ho.deleted, ho.fixed, ho.result, by rw [hf]; rfl, by rw [hf]; rfl, ?_⟩
  obtain ⟨t⟩ := analyze_steps hr
  obtain ⟨w, final, _, _, _, _, _, _, e⟩ := finish_inv t.hfin
  exact (congrArg (·.externallyCallable) e).trans (decide_eq_true (by rw [hf]; rfl))

/-- **C66 (constructors of the superclass)**: a constructor of a subclass is offered only if that of the superclass is not
deleted and has a fixed number of parameters; after `this` and the Rust peer it takes what that one takes after `this`. -/
theorem subclass_ctor_offered {env : FnEnv} {r : FnRun} {name n : ApiName} {sub : ApiName} {sup : QName}
    {f g : FuncToConvert} {a : FnAnalysis} {soph : Sophistication} {pre : Option String} (hr : r.Ok env)
    (hg : subclassConstructor sub a sup f = some (g, n)) (ha : r.Asks name g soph pre) (hi : r.a.ignoreReason = none) :
    f.isDeleted ≠ some .deleted ∧ f.variadic = false ∧ r.a.externallyCallable = true ∧
      ∃ this mu cls rest, f.inputs = .typed this (.ptr mu cls) :: rest ∧
        g.inputs = .typed this (.ptr mu (.path sub.cppPeer.toTypePath [])) ::
          .typed "peer" (.path ["rust", "Box"] [.path [sub.holder] []]) :: rest := by
  obtain ⟨-, hf, -, -⟩ := ha
  have ho := exposed_offerable hr hi
  rw [hf] at ho
  rw [subclassConstructor] at hg
  obtain ⟨inputs, hin, e⟩ := Option.map_eq_some_iff.1 hg
  have hgf := congrArg Prod.fst e
  dsimp only at hgf
  have hd : g.isDeleted = f.isDeleted := by rw [← hgf]
  have hv : g.variadic = f.variadic := by rw [← hgf]
  have hi : g.inputs = inputs := by rw [← hgf]
  have hp : g.cppVis = .pub := by rw [← hgf]
  refine ⟨hd ▸ ho.deleted, hv ▸ ho.fixed, ?_, ?_⟩
  · obtain ⟨t⟩ := analyze_steps hr
    obtain ⟨w, final, _, _, _, _, _, _, e⟩ := finish_inv t.hfin
    exact (congrArg (·.externallyCallable) e).trans (decide_eq_true (by rw [hf]; exact hp))
  · rw [hi]
    unfold subclassCtorInputs at hin
    split at hin
    · rename_i n mu c l he
      exact ⟨n, mu, c, l, he, (Option.some.inj hin).symm⟩
    · cases hin

/-! ## Constness -/

theorem ParamFates.self_from {env : FnEnv} {ns : List String} {diag : QName} {m : ArgMode} {s s' : FnState}
    {l : List FnArg} {ps : List (FnArg × ArgumentAnalysis)} {es : List Err}
    (h : ParamFates env ns diag m s l s' ps es) {q : QName × ReceiverMutability} (hq : selfOfParams ps = some q) :
    ∃ mu t, .typed "this" (.ptr mu t) ∈ l ∧ q.2 = if mu then .mutable else .const := by
  induction h with
  | nil => cases hq
  | bad _ _ ih =>
    obtain ⟨mu, t, h, e⟩ := ih hq
    exact ⟨mu, t, List.mem_cons_of_mem _ h, e⟩
  | good h _ ih =>
    obtain ⟨nm, ty, self, into, hp, hn⟩ := convertFnArg_ok h
    obtain ⟨st, a, conv, hc, _, hv, rfl⟩ := convertNamedArg_ok hn
    cases hp with
    | thisRef ht hr =>
      cases hq
      obtain ⟨mu, segs, args, rfl, hr, -⟩ := thisType_done ht
      exact ⟨mu, _, .head _, hr⟩
    | thisPtr ht hr =>
      cases hq
      obtain ⟨mu, segs, args, rfl, hr, -⟩ := thisType_done ht
      exact ⟨mu, _, .head _, hr⟩
    | other hne hval =>
      obtain ⟨mu, t, h, e⟩ := ih hq
      exact ⟨mu, t, List.mem_cons_of_mem _ h, e⟩

theorem decideKind_receiver {env : FnEnv} {s s2 : FnState} {ns : List String} {f : FuncToConvert} {ideal : String}
    {pre : Option String} {self : Option QName} {st : Bool} {recv : Option ReceiverMutability} {second : Bool}
    {kn : KindAndName} (h : decideKind env s ns f ideal pre self st recv second = .done (s2, kn))
    {x : QName × ReceiverMutability} (hv : kn.kind.virtualOf = some x) :
    recv = some x.2 ∧ ((f.virtualness = some .virtual ∧ kn.kind.isPure = false) ∨
      (f.virtualness = some .pureVirtual ∧ kn.kind.isPure = true)) := by
  have hord := decideKind_virtual h hv
  obtain ⟨h0, h1, h2, h3⟩ := hord
  unfold decideKind at h
  rw [h0] at h
  dsimp only at h
  split at h
  · split at h
    · exact absurd ‹_› h1
    · exact absurd ‹_› h2
    · exact absurd ‹_› h3
    · unfold plainMethodKind at h
      split at h
      · cases h; cases hv
      · split at h
        · cases h; cases hv
        · split at h
          · cases h
          · have h := congrArg Prod.snd (PassRun.done.inj h)
            dsimp only at h
            rw [← h] at hv ⊢
            dsimp only at hv ⊢
            cases hf : f.virtualness with
            | none => rw [hf] at hv; cases hv
            | some v =>
              rw [hf] at hv
              cases v with
              | «virtual» => cases hv; exact ⟨rfl, .inl ⟨rfl, rfl⟩⟩
              | pureVirtual => cases hv; exact ⟨rfl, .inr ⟨rfl, rfl⟩⟩
  · cases h; cases hv

/-- A method is bound as virtual if it is, and its object can be changed exactly if `this` points to something which can
be. -/
theorem virtual_object {env : FnEnv} {s s' : FnState} {name n : ApiName} {f : FuncToConvert} {soph : Sophistication}
    {pre : Option String} {a : FnAnalysis} (h : analyzeForeignFn env s name f soph pre = .done (s', a, n))
    {q : QName} {recv : ReceiverMutability} (hv : a.kind.virtualOf = some (q, recv)) :
    ((f.virtualness = some .virtual ∧ a.kind.isPure = false) ∨
      (f.virtualness = some .pureVirtual ∧ a.kind.isPure = true)) ∧
    ∃ mu t, .typed "this" (.ptr mu t) ∈ f.inputs ∧ (recv = .mutable ↔ mu = true) := by
  obtain ⟨t⟩ := analyze_steps h
  rw [t.kind_eq] at hv ⊢
  obtain ⟨hr, hp⟩ := decideKind_receiver t.hkind hv
  obtain ⟨x, hx, e⟩ := Option.map_eq_some_iff.1 hr
  obtain ⟨mu, ty, hm, hq⟩ := t.hparams.self_from hx
  refine ⟨hp, mu, ty, hm, ?_⟩
  have hq : recv = if mu then .mutable else .const := by rw [← hq]; exact e.symm
  rw [hq]
  cases mu <;> simp

variable {fuel : Nat} {hash : Config → Nat} {sigOf : RustSig → RustFnSig} {policy : UnsafePolicy} {cfg : Config}
  {force : Bool} {cb : Callbacks} {items : List BindgenItem} {out : FnApiVec}
  (p : ConvertStages fuel hash sigOf policy cfg force cb items out)
include p

namespace ConvertStages

/-- **C66 (constness)**: what C++ calls for a virtual method – which was analysed, and gave it its name – and the member
function of the subclass which overrides that method, are for objects which cannot be changed exactly if the method is: exactly if its `this` points to something
`const`. -/
theorem override_constness {n sub : ApiName} {d : RustSubclassFnDetails} (h : .rustSubclassFn n sub d ∈ out.apis) :
    ∃ q : FnPassStages fuel hash policy cfg force p.allocs.apis p.fns, ∃ r ∈ q.runs, r.Ok q.env ∧
      n.name.name = sub.name.name ++ "_" ++ r.n.name.name ∧ r.f.virtualness ≠ none ∧
      ∃ mu t, .typed "this" (.ptr mu t) ∈ r.f.inputs ∧ (d.cppImpl.kind = .constMethod ↔ mu = false) ∧ (d.receiverMutability = .mutable ↔ mu = true) := by
  rcases p.delivered_reachable h with ⟨_, _, e⟩ | ⟨z, hz, -, e, -⟩
  · cases e
  · rcases e with rfl | e
    · obtain ⟨-, -, x, hx, hs, -⟩ := p.item_origin hz rfl
      obtain ⟨q⟩ := p.fn_stages
      have ho := items_from q hx
      cases ho with
      | @kept w hw hf =>
        exfalso
        rw [shape_map] at hs
        rcases p.allocs_from w hw with h | h | ⟨a, ha, has⟩
        · cases w <;> first | (cases h; done) | cases hs
        · cases h <;> cases hs
        · have h1 := parsed_kinds p.hparse ha
          have h2 := has.trans hs
          cases a <;> first | (cases h2; done) | exact h1
      | fn => cases hs
      | @override_ r r2 hr hr2 sup recv hv sub' hsub deps ha hd =>
        obtain ⟨hvir, mu, t, hm, hrec⟩ := virtual_object (q.trace.ok r hr) hv
        refine ⟨q, r, hr, q.trace.ok r hr, by rw [withConstructors_eq] at hs; cases hs; rfl, ?_, mu, t, hm, ?_⟩
        · rcases hvir with ⟨e, -⟩ | ⟨e, -⟩ <;> rw [e] <;> exact Option.some_ne_none _
        · rw [withConstructors_eq] at hs
          cases hs
          refine ⟨?_, hrec⟩
          cases mu with
          | false =>
            rw [if_neg (fun e => by cases hrec.1 e)]
            simp
          | true =>
            rw [if_pos (hrec.2 rfl)]
            simp
      | trait_ => cases hs
      | inst => cases hs
      | marker h => rw [h] at hs; cases hs
    · cases e

end ConvertStages

end Verif
