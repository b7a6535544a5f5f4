import Verif.CppTotalProps
import Verif.FnPanicProps
import Verif.PipelineFnProps
import Verif.ParseGoodProps

/-!
# Functions whose C++ is made up (C25, C26, C27)

A function which has no counterpart in the header is made up for each cast to a base class, and two for each class, to get
and to give back memory for one. Their C++ is here followed to its text.
-/

set_option autoImplicit false

namespace Verif

/-! ## What they are -/

/-- A function which casts a const reference to a `derived` to one to a `base`. -/
structure Casts (f : FuncToConvert) (derived base : QName) : Prop where
  inputs : f.inputs = [.typed "this" (.ptr false (.path derived.toTypePath []))]
  output : f.output = some (.path ["__bindgen_marker_Reference"] [.ptr false (.path base.toTypePath [])])
  trait : f.addToTrait = some (.cast base .constToConst)
  cpp : f.syntheticCpp = some (.cast, .function)

/-- A function which gets memory for a `ty`. -/
structure Allocates (f : FuncToConvert) (ty : QName) : Prop where
  inputs : f.inputs = []
  output : f.output = some (.ptr true (.path ty.toTypePath []))
  trait : f.addToTrait = some (.allocUninitialized ty)
  cpp : f.syntheticCpp = some (.allocUninitialized ty, .function)
  ident : f.ident = ty.name ++ "_autocxx_alloc"

/-- A function which gives back memory for a `ty`. -/
structure Frees (f : FuncToConvert) (ty : QName) : Prop where
  inputs : f.inputs = [.typed "arg0" (.ptr true (.path ty.toTypePath []))]
  output : f.output = none
  trait : f.addToTrait = some (.freeUninitialized ty)
  cpp : f.syntheticCpp = some (.freeUninitialized ty, .function)
  ident : f.ident = ty.name ++ "_autocxx_free"

/-! ## What the analysis makes of them -/

variable {env : FnEnv} {s s' : FnState} {name n : ApiName} {f : FuncToConvert} {soph : Sophistication}
  {pre : Option String} {a : FnAnalysis}

/-- They always have a wrapper. -/
theorem made_wrapped (h : analyzeForeignFn env s name f soph pre = .done (s', a, n)) {x : CppFunctionBody × CppFunctionKind}
    (hs : f.syntheticCpp = some x) : ∃ w, a.cppWrapper = some w := by
  obtain ⟨t⟩ := analyze_steps h
  obtain ⟨b, final, np, hb, _, _, _, _, ha⟩ := finish_inv t.hfin
  have : b = true := by
    rw [hb, wrapperNeeded.eq_def]
    split <;> simp [hs]
  subst this
  rw [ha]
  exact ⟨_, rfl⟩

theorem made_params (t : FnSteps env s name f soph pre s' a n) (hx : a.ignoreReason = none) {tr : TraitSynthesis}
    (ht : f.addToTrait = some tr) :
    (∃ q d k, t.kn.kind = .traitMethod k q d ∧ (k = .cast ∨ k = .alloc ∨ k = .dealloc)) ∧
    ParamFates env name.name.ns ⟨name.name.ns, t.diag⟩ { virtualThis := f.synthesizedThisType, soph := soph } s
      f.inputs t.s1 t.ps' [] := by
  have hk : ∃ q d k, t.kn.kind = .traitMethod k q d ∧ (k = .cast ∨ k = .alloc ∨ k = .dealloc) := by
    have hkind := t.hkind
    rw [decideKind.eq_def, ht] at hkind
    dsimp only at hkind
    rw [traitKind.eq_def] at hkind
    split at hkind
    · split at hkind
      · cases hkind
      · have := congrArg (fun r => match r with | .done x => x.2.kind | _ => .function) hkind
        exact ⟨_, _, _, this.symm, .inl rfl⟩
    · have := congrArg (fun r => match r with | .done x => x.2.kind | _ => .function) hkind
      exact ⟨_, _, _, this.symm, .inr (.inl rfl)⟩
    · have := congrArg (fun r => match r with | .done x => x.2.kind | _ => .function) hkind
      exact ⟨_, _, _, this.symm, .inr (.inr rfl)⟩
  refine ⟨hk, ?_⟩
  obtain ⟨q, d, k, hk, hk'⟩ := hk
  have hre := t.hre
  obtain ⟨_, _, _, hb, _⟩ := exposed_parts t hx
  have hp := t.hparams
  rw [hb] at hp
  rw [hk, reanalyzeParams.eq_def] at hre
  have hps : t.ps' = t.ps := by
    rcases hk' with rfl | rfl | rfl <;> exact (congrArg (fun r => match r with | .done x => x.2.1 | _ => []) hre).symm
  rw [hps]
  exact hp

/-- The result of a function which is offered was converted. -/
theorem made_return (t : FnSteps env s name f soph pre s' a n) (hx : a.ignoreReason = none) :
    ReturnFate env t.s4 name.name.ns ⟨name.name.ns, t.diag⟩ soph f.output s' t.ret := by
  obtain ⟨_, _, h3, _⟩ := exposed_parts t hx
  rcases t.hret with ⟨hr, _⟩ | ⟨e, _, _, he⟩
  · exact convertReturn_ok hr
  · rw [h3] at he; cases he

/-- Memory is had without parameters, and the pointer to it is given to Rust as it is. -/
theorem alloc_analysed (h : analyzeForeignFn env s name f soph pre = .done (s', a, n)) (hx : a.ignoreReason = none)
    {ty : QName} (hf : Allocates f ty) :
    a.paramDetails = [] ∧ ∃ t r, a.retConversion = some ⟨.ptr true t, .none, r⟩ := by
  obtain ⟨t⟩ := analyze_steps h
  have hp := (made_params t hx hf.trait).2
  have hr := made_return t hx
  rw [hf.inputs] at hp
  rw [hf.output] at hr
  rw [t.details_eq, t.retConversion_eq]
  generalize t.ps' = ps' at hp ⊢
  generalize t.s1 = s1 at hp
  generalize t.ret = ret at hr ⊢
  generalize t.s4 = s4 at hr
  cases hp
  cases hr with
  | plain hc _ hr =>
    obtain ⟨st, hc, _⟩ := convertBoxed_ok hc
    obtain ⟨_, b, _, _, rfl⟩ := convert_ptr hc
    rw [plainReturn] at hr
    dsimp only at hr
    rw [if_neg (by simp)] at hr
    cases hr
    exact ⟨rfl, _, _, rfl⟩
  | value hc ht =>
    obtain ⟨st, hc, _⟩ := convertBoxed_ok hc
    obtain ⟨_, b, _, _, rfl⟩ := convert_ptr hc
    cases ht

/-- Memory is given back by a pointer which comes from Rust as it is, and nothing is returned. -/
theorem free_analysed (h : analyzeForeignFn env s name f soph pre = .done (s', a, n)) (hx : a.ignoreReason = none)
    {ty : QName} (hf : Frees f ty) :
    (∃ p t r, a.paramDetails = [p] ∧ p.conversion = ⟨.ptr true t, .none, r⟩) ∧ a.retConversion = none := by
  obtain ⟨t⟩ := analyze_steps h
  have hp := (made_params t hx hf.trait).2
  have hr := made_return t hx
  rw [hf.inputs] at hp
  rw [hf.output] at hr
  rw [t.details_eq, t.retConversion_eq]
  generalize t.ps' = ps' at hp ⊢
  generalize t.s1 = s1 at hp
  generalize t.ret = ret at hr ⊢
  generalize t.s4 = s4 at hr
  cases hr
  cases hp with
  | good hc hp =>
    cases hp
    obtain ⟨_, hc⟩ := convertFnArg_other (by decide) hc
    obtain ⟨st, x, conv, hct, _, hv, rfl⟩ := convertNamedArg_ok hc
    obtain ⟨_, b, _, _, rfl⟩ := convert_ptr hct
    rw [argConversion.eq_def] at hv
    simp at hv
    exact ⟨⟨_, _, _, rfl, hv.symm⟩, rfl⟩

/-- A cast takes a const reference and gives one; or, if references are wrapped, a const pointer, and gives one. -/
theorem cast_analysed (h : analyzeForeignFn env s name f soph pre = .done (s', a, n)) (hx : a.ignoreReason = none)
    {derived base : QName} (hf : Casts f derived base) :
    ∃ p c d b, a.paramDetails = [p] ∧ a.retConversion = some c ∧
      ((p.conversion.unwrappedType = .ref false none d ∧ p.conversion.cppConversion = .none ∧
          c.unwrappedType = .ref false none b ∧ c.cppConversion = .none) ∨
       (p.conversion.unwrappedType = .ptr false d ∧ p.conversion.cppConversion = .fromPointerToReference ∧
          c.unwrappedType = .ptr false b ∧ c.cppConversion = .fromReferenceToPointer)) := by
  obtain ⟨t⟩ := analyze_steps h
  have hp := (made_params t hx hf.trait).2
  have hr := made_return t hx
  rw [hf.inputs] at hp
  rw [hf.output] at hr
  rw [t.details_eq, t.retConversion_eq]
  generalize t.ps' = ps' at hp ⊢
  generalize t.s1 = s1 at hp
  generalize t.ret = ret at hr ⊢
  generalize t.s4 = s4 at hr
  have marker : ∀ {st st' : Concretes} {m : Nat} {e : Ty} {x : Annotated Ty},
      convertType env.conv name.name.ns m .outerType st (.path ["__bindgen_marker_Reference"] [.ptr false e]) =
        (st', .ok x) → ∃ b, x.ty = .ref false none b ∧ x.kind = .reference := by
    intro st st' m e x hc
    cases m with
    | zero => cases hc
    | succ m =>
      rw [convert_marker] at hc
      obtain ⟨s, b, _, hc⟩ := thenDo_ok hc
      cases hc
      exact ⟨_, rfl, rfl⟩
  have hret : ∃ c b, ret.placement = none ∧ ret.conversion = some c ∧
      ((env.conv.cfg.unsafePolicy ≠ .referencesWrappedAllFunctionsSafe ∧ c.unwrappedType = .ref false none b ∧
        c.cppConversion = .none) ∨
       (env.conv.cfg.unsafePolicy = .referencesWrappedAllFunctionsSafe ∧ c.unwrappedType = .ptr false b ∧
        c.cppConversion = .fromReferenceToPointer)) := by
    cases hr with
    | plain hc _ hr =>
      obtain ⟨st, hc, _⟩ := convertBoxed_ok hc
      obtain ⟨b, h1, h2⟩ := marker hc
      rw [plainReturn] at hr
      by_cases hw : env.conv.cfg.unsafePolicy = .referencesWrappedAllFunctionsSafe
      · simp only [h1, h2, hw, or_true, and_self, if_true, TypeConversionPolicy.returnReferenceIntoWrapper,
          Option.map_some, Option.some.injEq] at hr
        subst hr
        exact ⟨_, b, rfl, rfl, .inr ⟨hw, rfl, rfl⟩⟩
      · simp only [h1, h2, hw, and_false, if_false, Option.map_some, Option.some.injEq] at hr
        subst hr
        exact ⟨_, b, rfl, rfl, .inl ⟨hw, rfl, rfl⟩⟩
    | value hc ht =>
      obtain ⟨st, hc, _⟩ := convertBoxed_ok hc
      obtain ⟨b, h1, h2⟩ := marker hc
      rw [h1] at ht
      cases ht
  obtain ⟨c, b, hpl, hcv, hret⟩ := hret
  cases hp with
  | good hc hp =>
    cases hp
    obtain ⟨nm, ty, self, into, hprep, hc⟩ := convertFnArg_ok hc
    obtain ⟨st, x, conv, hct, _, hv, rfl⟩ := convertNamedArg_ok hc
    clear hc
    cases hprep with
    | other hn => exact absurd rfl hn
    | thisPtr _ hr => cases hr
    | @thisRef _ ty' q ht hr =>
      have : ∃ e, ty' = .ptr false e := by
        rw [thisType.eq_def] at ht
        dsimp only at ht
        split at ht
        · cases ht; exact ⟨_, rfl⟩
        · split at ht
          · cases ht
          · cases ht; exact ⟨_, rfl⟩
      obtain ⟨e, rfl⟩ := this
      obtain ⟨d, h1, h2⟩ := marker hct
      refine ⟨_, c, d, b, by rw [hpl]; rfl, hcv, ?_⟩
      show (conv.unwrappedType = _ ∧ conv.cppConversion = _ ∧ _) ∨ (conv.unwrappedType = _ ∧ conv.cppConversion = _ ∧ _)
      rw [argConversion.eq_def] at hv
      simp only [h1, h2] at hv
      rcases hret with ⟨hw, h3, h4⟩ | ⟨hw, h3, h4⟩
      · simp [hw] at hv
        subst hv
        exact .inl ⟨rfl, rfl, h3, h4⟩
      · simp [hw] at hv
        subst hv
        exact .inr ⟨rfl, rfl, h3, h4⟩

/-! ## Their text -/

/-- The name, the types and the constness of a wrapper are those of the bridge. -/
structure WrapperHead (m : CppNameMap) (a : FnAnalysis) (e : ExtraCpp) (fn : CFunction) : Prop where
  declared : e.declaration = some fn.render
  undefined : e.definition = none
  called : fn.name = a.cxxbridgeName
  plain : fn.isConst = false
  takes : All2 (CxxSpelling m.map) (a.params.map FnArg.type) (fn.params.map (·.1))
  distinct : (fn.params.map (·.2)).Nodup
  gives : ResultSpelling m.map a.retType fn.ret

theorem made_head (h : analyzeForeignFn env s name f soph pre = .done (s', a, n)) {w : CppFunction}
    (hw : a.cppWrapper = some w) {m : CppNameMap} {e : ExtraCpp} {fn : CFunction} {es : List (CExpr String)} {c : CCall}
    (hk : w.kind = .function) (g : Generated m w e fn es c) : WrapperHead m a e fn := by
  obtain ⟨hconv, hret, hn, hobs, _⟩ := wrapper_conversions h hw
  refine ⟨g.text.1, g.text.2.1, by rw [g.name, hn], ?_, ?_, g.distinct, ?_⟩
  · cases hb : fn.isConst with
    | false => rfl
    | true => have := g.isConst.1 hb; rw [hk] at this; cases this
  · have := g.types
    rw [hconv, List.map_map] at this
    rw [bridge_params_agree h]
    exact this
  · rw [bridge_return_agrees h, ← hret]
    exact g.result

/-- **C25 (memory for an object)**: the function has no parameters and gives back what `new_appropriately` gives for that
type. -/
theorem alloc_text (h : analyzeForeignFn env s name f soph pre = .done (s', a, n)) (hx : a.ignoreReason = none)
    {ty : QName} (hf : Allocates f ty) {w : CppFunction} (hw : a.cppWrapper = some w) {m : CppNameMap} (hp : PinOnly m)
    {e : ExtraCpp} (hg : generateCppFunctionInner m w false .rustCallsCpp false none = .ok e) :
    ∃ fn, WrapperHead m a e fn ∧ fn.params = [] ∧ ∃ r, fn.body = .ret r ∧ r.uses = .allocate (m.map ty) ∧
      ∀ o, r.eval (.pointer o) = some (.pointer o) := by
  obtain ⟨hconv, hret, hn, hobs, _⟩ := wrapper_conversions h hw
  have hd := (wrapper_does h hw).2.1 _ hf.cpp
  obtain ⟨h1, t, r, h2⟩ := alloc_analysed h hx hf
  have hk : w.kind = .function := congrArg Prod.snd hd
  have hpl : w.payload = .allocUninitialized ty := congrArg Prod.fst hd
  have hm : w.isAMethod false = false := by simp [CppFunction.isAMethod, hk]
  have hfit : PayloadFits w := ⟨hobs, by rw [hpl]; exact ⟨hm, by rw [hconv, h1]; rfl⟩⟩
  obtain ⟨fn, es, c, g⟩ := generated_function hp hfit (by rw [hk]; simp) hg
  refine ⟨fn, made_head h hw hk g, ?_, ?_⟩
  · have := g.types.length_eq
    rw [hconv, h1] at this
    simp only [List.map_nil, List.length_nil, List.length_map] at this
    exact List.eq_nil_of_length_eq_zero this.symm
  · have hc := g.calls
    have hr := g.returns
    rw [hpl, hm] at hc
    rw [hret, h2, hconv, h1] at hr
    cases hc
    generalize hb : fn.body = body at hr ⊢
    cases hr with
    | ret _ he => exact ⟨_, rfl, he.uses, fun o => he.turns .samePointer⟩
    | emplace hp => simp [placeOf] at hp

/-- **C25 (memory given back)**: the function has one parameter, which is handed to `delete_appropriately` for that type as it
is, and gives nothing back. -/
theorem free_text (h : analyzeForeignFn env s name f soph pre = .done (s', a, n)) (hx : a.ignoreReason = none)
    {ty : QName} (hf : Frees f ty) {w : CppFunction} (hw : a.cppWrapper = some w) {m : CppNameMap} (hp : PinOnly m)
    {e : ExtraCpp} (hg : generateCppFunctionInner m w false .rustCallsCpp false none = .ok e) :
    ∃ fn t x, WrapperHead m a e fn ∧ fn.params = [(t, x)] ∧ fn.body = .run (.release (m.map ty) (.leaf x)) := by
  obtain ⟨hconv, hret, hn, hobs, _⟩ := wrapper_conversions h hw
  have hd := (wrapper_does h hw).2.1 _ hf.cpp
  obtain ⟨⟨p, t, r, h1, hpc⟩, h2⟩ := free_analysed h hx hf
  have hk : w.kind = .function := congrArg Prod.snd hd
  have hpl : w.payload = .freeUninitialized ty := congrArg Prod.fst hd
  have hm : w.isAMethod false = false := by simp [CppFunction.isAMethod, hk]
  have hargs : w.argumentConversion = [⟨.ptr true t, .none, r⟩] := by rw [hconv, h1, ← hpc]; rfl
  have hfit : PayloadFits w := ⟨hobs, by rw [hpl]; exact ⟨hm, _, _, hargs⟩⟩
  obtain ⟨fn, es, c, g⟩ := generated_function hp hfit (by rw [hk]; simp) hg
  have hlen := g.types.length_eq
  rw [hargs] at hlen
  simp only [List.map_cons, List.map_nil, List.length_cons, List.length_nil, List.length_map] at hlen
  obtain ⟨⟨ty', x⟩, hone⟩ := List.length_eq_one_iff.1 hlen.symm
  have hc := g.calls
  have hr := g.returns
  have hps := g.passes
  rw [hpl, hm] at hc
  rw [hret, h2] at hr
  rw [hargs, hone] at hps
  refine ⟨fn, ty', x, made_head h hw hk g, hone, ?_⟩
  cases hc
  have hx : x = "arg0" := by
    have h1 : passedOn [⟨.ptr true t, .none, r⟩] (([(ty', x)] : List (String × String)).map (·.2)) =
      [(⟨.ptr true t, .none, r⟩, x)] := rfl
    rw [h1] at hps
    cases hps with
    | cons he _ => exact he.uses.symm
  subst hx
  generalize hb : fn.body = body at hr ⊢
  cases hr
  rfl

/-- **C25, C26 (casts)**: the function has one parameter and returns the object it is given: a const reference to it for a
const reference, or a const pointer to it for a const pointer. -/
theorem cast_text (h : analyzeForeignFn env s name f soph pre = .done (s', a, n)) (hx : a.ignoreReason = none)
    {derived base : QName} (hf : Casts f derived base) {w : CppFunction} (hw : a.cppWrapper = some w) {m : CppNameMap}
    (hp : PinOnly m) {e : ExtraCpp} (hg : generateCppFunctionInner m w false .rustCallsCpp false none = .ok e) :
    ∃ fn t x u r, WrapperHead m a e fn ∧ fn.params = [(t, x)] ∧ fn.body = .ret r ∧ r.uses = .convert u ∧ u.uses = x ∧
      ((∃ d b, a.params.map FnArg.type = [.ref false none d] ∧ a.retType = some (.ref false none b) ∧
          (∀ o, u.eval (.object o) = some (.object o)) ∧ ∀ o, r.eval (.object o) = some (.object o)) ∨
       (∃ d b, a.params.map FnArg.type = [.ptr false d] ∧ a.retType = some (.ptr false b) ∧
          (∀ o, u.eval (.pointer o) = some (.object o)) ∧ ∀ o, r.eval (.object o) = some (.pointer o))) := by
  obtain ⟨hconv, hret, hn, hobs, _⟩ := wrapper_conversions h hw
  have hd := (wrapper_does h hw).2.1 _ hf.cpp
  obtain ⟨p, c, d, b, h1, h2, h3⟩ := cast_analysed h hx hf
  have hk : w.kind = .function := congrArg Prod.snd hd
  have hpl : w.payload = .cast := congrArg Prod.fst hd
  have hm : w.isAMethod false = false := by simp [CppFunction.isAMethod, hk]
  have hargs : w.argumentConversion = [p.conversion] := by rw [hconv, h1]; rfl
  have hnp : p.conversion.isPlacementParameter = false := by
    rw [TypeConversionPolicy.isPlacementParameter]
    rcases h3 with ⟨_, h, _⟩ | ⟨_, h, _⟩ <;> rw [h] <;> rfl
  have hfit : PayloadFits w := ⟨hobs, by rw [hpl]; exact ⟨hm, by rw [hargs]; simp [hnp]⟩⟩
  obtain ⟨fn, es, call, g⟩ := generated_function hp hfit (by rw [hk]; simp) hg
  have hlen := g.types.length_eq
  rw [hargs] at hlen
  simp only [List.map_cons, List.map_nil, List.length_cons, List.length_nil, List.length_map] at hlen
  obtain ⟨⟨ty', x⟩, hone⟩ := List.length_eq_one_iff.1 hlen.symm
  have hc := g.calls
  have hr := g.returns
  have hps := g.passes
  rw [hpl, hm] at hc
  rw [hret, h2, hargs, hone] at hr
  rw [hargs, hone] at hps
  have e1 : passedOn [p.conversion] (([(ty', x)] : List (String × String)).map (·.2)) = [(p.conversion, x)] := by
    simp [passedOn, hnp]
  have e2 : placeOf [p.conversion] (([(ty', x)] : List (String × String)).map (·.2)) = none := by
    simp [placeOf, hnp]
  rw [e1] at hps
  rw [e2] at hr
  have hcp : c.populateReturnValue = true := by
    obtain ⟨ps, rest, hdet, hal, _, hrest⟩ := params_and_place h hx
    rcases hrest with ⟨_, hrest⟩ | ⟨q, c', rfl, hq, _⟩
    · exact hrest c h2
    · exfalso
      have h4 : q ∈ a.paramDetails := by rw [hdet]; simp
      rw [h1, List.mem_singleton] at h4
      rw [h4, hnp] at hq
      cases hq
  cases hc with
  | @convert u =>
    cases hps with
    | cons he _ =>
      generalize hb : fn.body = body at hr
      cases hr with
      | emplace hpl => cases hpl
      | @ret _ r _ hr =>
        refine ⟨fn, ty', x, u, r, made_head h hw hk g, hone, hb, hr.uses, he.uses, ?_⟩
        have het : ∀ {h v}, Turns false p.conversion.cppConversion h v → u.eval h = some v := he.turns
        have hrt : ∀ {h v}, Turns true c.cppConversion h v → r.eval h = some v := hr.turns
        rw [bridge_params_agree h, bridge_return_agrees h, h1, h2]
        have hcp' : ((some c).bind fun c => if c.populateReturnValue = true then some c.unconvertedRustType else none) =
            some c.unconvertedRustType := by simp [hcp]
        rw [hcp']
        show (∃ d b, [p.conversion.convertedRustType] = _ ∧ _) ∨ (∃ d b, [p.conversion.convertedRustType] = _ ∧ _)
        clear he hr hargs hnp e1 e2 hlen
        generalize p.conversion = pcv at h3 het ⊢
        obtain ⟨pt, pc, pr⟩ := pcv
        obtain ⟨ct, cc, cr⟩ := c
        rcases h3 with ⟨rfl, rfl, rfl, rfl⟩ | ⟨rfl, rfl, rfl, rfl⟩
        · exact .inl ⟨d, b, rfl, rfl, fun o => het .same, fun o => hrt .same⟩
        · exact .inr ⟨d, b, rfl, rfl, fun o => het .reference, fun o => hrt .pointer⟩

/-- **C27 (functions whose C++ is made up)**: their C++ can be made exactly if the types of their parameters and result can
be written in C++. -/
theorem made_possible_iff (h : analyzeForeignFn env s name f soph pre = .done (s', a, n)) (hx : a.ignoreReason = none)
    {b : CppFunctionBody} {k : CppFunctionKind} (hs : f.syntheticCpp = some (b, k)) (hb : ∀ ns id, b ≠ .placementNew ns id)
    {w : CppFunction} (hw : a.cppWrapper = some w) (m : CppNameMap) :
    (∃ e, generateCppFunctionInner m w false .rustCallsCpp false none = .ok e) ↔
      (∀ p ∈ a.paramDetails, Spellable m p.conversion.unwrappedType) ∧
      ∀ c, a.retConversion = some c → Spellable m c.unwrappedType := by
  obtain ⟨hconv, hret, hn, hobs, _⟩ := wrapper_conversions h hw
  obtain ⟨ps, rest, hdet, hal, hnp, hrest⟩ := params_and_place h hx
  constructor
  · rintro ⟨e, hg⟩
    obtain ⟨h1, h2⟩ := generate_needs hg
    constructor
    · intro p hp
      exact h1 _ (by rw [hconv]; exact List.mem_map_of_mem hp)
    · intro c hc
      refine h2 c (by rw [hret, hc]) (result_fits h hc) ?_
      rcases hrest with ⟨_, hrest⟩ | ⟨p, c', rfl, hp, _⟩
      · exact .inl (hrest c hc)
      · exact .inr ⟨p.conversion, by rw [hconv, hdet]; simp, hp⟩
  · rintro ⟨h1, h2⟩
    refine generate_total ?_ ?_ ?_
    · intro ns id hp
      have hd := (wrapper_does h hw).2.1 _ hs
      exact absurd ((congrArg Prod.fst hd).symm.trans hp) (hb ns id)
    · intro c hc
      rw [hret] at hc
      exact ⟨result_fits h hc, h2 c hc⟩
    · intro p hp
      rw [hconv] at hp
      obtain ⟨x, hx, rfl⟩ := List.mem_map.1 hp
      exact h1 x hx

/-! ## The name a class has in its destructor -/

/-- C65: a class bindgen did not rename is called by its name. -/
theorem own_name_plain {m : CppNameMap} {q : QName} (h : AMap.get? m q = none) : m.getFinalItem q = q.name := by
  rw [CppNameMap.getFinalItem, h]

/-- C65: a class within another is called by the last part of its name in C++. -/
theorem own_name_nested {m : CppNameMap} {q : QName} {c outer x : String} (h : AMap.get? m q = some c)
    (hc : c = outer ++ "::" ++ x) (hx : ∀ ch ∈ x.toList, ch ≠ ':') : m.getFinalItem q = x := by
  have : finalSegment c = some x := by
    rw [finalSegment, hc, String.toList_append, String.toList_append, List.append_assoc,
      splitLast_append _ _ _ (colons_none hx)]
    · exact congrArg some String.ofList_toList
    · intro n h0 hle hp
      have hcc : "::".toList = [':', ':'] := by decide
      rw [hcc] at hle hp
      have hn : n = 1 ∨ n = 2 := by
        have : n ≤ 2 := hle
        omega
      have hsub : ∃ ch ∈ x.toList, ch = ':' := by
        rcases hn with rfl | rfl
        · cases hl : x.toList with
          | nil =>
            rw [hl] at hp
            have := hp.length_le
            simp at this
          | cons d l =>
            rw [hl] at hp
            obtain ⟨r, hr⟩ := hp
            simp at hr
            exact ⟨d, List.mem_cons_self, hr.1.symm⟩
        · obtain ⟨r, hr⟩ := hp
          simp at hr
          exact ⟨':', by rw [← hr]; simp, rfl⟩
      obtain ⟨ch, hm, he⟩ := hsub
      exact hx ch hm he
    · decide
  rw [CppNameMap.getFinalItem, h]
  dsimp only
  rw [this]
  rfl

/-- C65: a class which is not within another but has a different name in C++ is called by the name bindgen gives
it. -/
theorem own_name_renamed {m : CppNameMap} {q : QName} {c : String} (h : AMap.get? m q = some c)
    (hc : ∀ ch ∈ c.toList, ch ≠ ':') : m.getFinalItem q = q.name := by
  rw [CppNameMap.getFinalItem, h]
  dsimp only
  rw [finalSegment, colons_none hc]
  rfl

/-- `struct A { struct B {}; };` in a namespace. -/
example : CppNameMap.getFinalItem [(⟨["ns"], "A_B"⟩, "A::B")] ⟨["ns"], "A_B"⟩ = "B" :=
  own_name_nested (c := "A::B") (outer := "A") (by decide) (by decide) (by decide)

/-! ## Where they come from -/

/-- The function is made up for a cast, or to get or give back memory. -/
def MadeUp (f : FuncToConvert) : Prop :=
  (∃ derived base, Casts f derived base) ∨ ∃ ty, Allocates f ty ∨ Frees f ty

/-- The functions are made up, and have no other name in C++, or are in the list. -/
def FnsCome {T S F T' S' F' : Type} (l : List (Api T S F)) (m : List (Api T' S' F')) : Prop :=
  ∀ n f u, .function n f u ∈ m → (MadeUp f ∧ n.cppName = none) ∨ ∃ u', .function n f u' ∈ l

theorem fn_of_shape {T S F T' S' F' : Type} {x : Api T S F} {n : ApiName} {f : FuncToConvert} {u : F'}
    (h : x.shape = (Api.function n f u : Api T' S' F').shape) : ∃ u', x = .function n f u' := by
  cases x <;> first | (cases h; exact ⟨_, rfl⟩) | cases h

theorem FnsCome.trans {T S F T' S' F' T'' S'' F'' : Type} {l : List (Api T S F)} {m : List (Api T' S' F')}
    {k : List (Api T'' S'' F'')} (h : FnsCome l m) (h' : FnsCome m k) : FnsCome l k := by
  intro n f u hu
  rcases h' n f u hu with hm | ⟨u', hm⟩
  · exact .inl hm
  · exact h n f u' hm

theorem FnsCome.held {T S F T' S' F' : Type} {l : List (Api T S F)} {m : List (Api T' S' F')} {v : ApiVec T' S' F'}
    (h : FnsCome l m) (hv : Held v m) : FnsCome l v.apis := by
  intro n f u hu
  rcases hv.from_ _ hu with hm | ⟨hi, -⟩
  · exact h n f u hm
  · cases hi

theorem FnsCome.all2 {T S F T' S' F' : Type} {R : Api T S F → Api T' S' F' → Prop} {l : List (Api T S F)}
    {m : List (Api T' S' F')} (h : All2 R l m) (hR : ∀ x y, R x y → y.GivenUp ∨ (∃ n e c, y = .ignoredItem n e c) ∨
      x.shape = y.shape) : FnsCome l m := by
  intro n f u hu
  obtain ⟨x, hx, hxy⟩ := h.right hu
  rcases hR x _ hxy with h | ⟨_, _, _, h⟩ | h
  · cases h
  · cases h
  · obtain ⟨u', rfl⟩ := fn_of_shape h
    exact .inr ⟨u', hx⟩

theorem FnsCome.append {T S F T' S' F' : Type} {l : List (Api T S F)} {m k : List (Api T' S' F')} (h : FnsCome l m)
    (h' : FnsCome l k) : FnsCome l (m ++ k) := fun n f u hu => (List.mem_append.1 hu).elim (h n f u) (h' n f u)

theorem fns_extra {T S F T' S' F' : Type} {l : List (Api T S F)} {e : List NullApi} {ft : Unit → T'} {fs : Unit → S'}
    {ff : Unit → F'} (h : ∀ x ∈ e, IsInstantiation x ∨ x.IsDup) :
    FnsCome l (e.map (Api.mapAnalysis ft fs ff)) := by
  intro n f u hu
  obtain ⟨x, hx, he⟩ := List.mem_map.1 hu
  rcases h x hx with ⟨id, rs, cpp, rfl⟩ | hi
  · cases he
  · rw [hi] at he; cases he

theorem fns_casts (v : ApiVec TypedefAnalysis PodAnalysis Unit) : FnsCome v.apis (addCasts v).apis := by
  refine FnsCome.held ?_ (held_fromIter _)
  intro n f u hy
  obtain ⟨x, hx, hy⟩ := List.mem_flatMap.1 hy
  cases x with
  | struct n d a =>
    rcases List.mem_append.1 hy with hy | hy
    · obtain ⟨b, -, e⟩ := List.mem_map.1 hy
      unfold createCast at e
      cases e
      exact .inl ⟨.inl ⟨_, _, rfl, rfl, rfl, rfl⟩, rfl⟩
    · cases List.mem_singleton.1 hy
  | function n f u =>
    cases List.mem_singleton.1 hy
    exact .inr ⟨_, hx⟩
  | _ => cases List.mem_singleton.1 hy

theorem fns_allocs (v : ApiVec TypedefAnalysis PodAnalysis Unit) : FnsCome v.apis (createAllocAndFrees v).apis := by
  have made : ∀ q n f u, .function n f u ∈ createAllocAndFree q → MadeUp f ∧ n.cppName = none := by
    intro q n f u hy
    unfold createAllocAndFree at hy
    rcases List.mem_cons.1 hy with e | hy
    · cases e; exact ⟨.inr ⟨_, .inl ⟨rfl, rfl, rfl, rfl, rfl⟩⟩, rfl⟩
    · cases List.mem_singleton.1 hy
      exact ⟨.inr ⟨_, .inr ⟨rfl, rfl, rfl, rfl, rfl⟩⟩, rfl⟩
  refine FnsCome.held ?_ (held_fromIter _)
  intro n f u hy
  obtain ⟨x, hx, hy⟩ := List.mem_flatMap.1 hy
  cases x with
  | struct n d a =>
    rcases List.mem_append.1 hy with hy | hy
    · exact .inl (made _ _ _ _ hy)
    · cases List.mem_singleton.1 hy
  | subclass n sup =>
    rcases List.mem_append.1 hy with hy | hy
    · exact .inl (made _ _ _ _ hy)
    · cases List.mem_singleton.1 hy
  | function n f u =>
    cases List.mem_singleton.1 hy
    exact .inr ⟨_, hx⟩
  | _ => cases List.mem_singleton.1 hy

section
variable {hash : Config → Nat} {sigOf : RustSig → RustFnSig} {cfg : Config} {cb : Callbacks} {items : List BindgenItem}

/-- The C++ of a function the parser finds is not made up. -/
theorem parsed_not_made {v : ApiVec Unit Unit Unit} (h : parseBindgenItems hash sigOf cfg cb items = some (.ok v))
    {n : ApiName} {f : FuncToConvert} {u : Unit} (ha : .function n f u ∈ v.apis) : f.syntheticCpp = none := by
  obtain ⟨l, ⟨lc, root, outs, -, hroot, -, -⟩, -, -⟩ := (parse_ok_iff ..).1 h
  rcases parsed_from _ _ _ _ _ root v h hroot _ ha with h | ⟨b, h1, h2⟩
  · obtain ⟨_, _, _, _, -, -, -, e⟩ := h
    cases e
  · rcases h1 with rfl | h1
    · rcases h2 with h2 | ⟨ns, l, i, o, -, -, hf, hfr, id, hn, -⟩
      · rcases h2 with ⟨-, e⟩ | ⟨_, -, e⟩ | ⟨_, -, _, -, e⟩ | ⟨_, _, -, e⟩ | ⟨_, -, e⟩ <;> cases e
      · unfold FromItem at hfr
        cases hf with
        | mod => cases hn
        | foreign hff =>
          rcases hfr with ha | ha | ha | ⟨f', hfm, e⟩
          · cases ha
          · cases ha
          · obtain ⟨id, hid, e⟩ := (foreign_found hff).2.2.2 _ ha
            cases e
          · obtain ⟨b, -, hb⟩ := (foreign_found hff).2.2.1 f' hfm
            obtain ⟨_, _, _, _, _, _, _, _, _, _, _, _, _, hs⟩ := hb
            have e' := congrArg (fun x : NullApi => match x with
              | .function _ f _ => f.syntheticCpp
              | _ => none) e
            exact e'.trans hs
        | forward _ _ _ hat =>
          rcases hfr with ha | ha | ha | ⟨f', hfm, e⟩
          · obtain ⟨d, v, -, -, he⟩ := hat
            have := List.mem_singleton.1 ha
            rw [he] at this
            split at this
            · cases this
            · split at this
              · cases this
              · split at this <;> cases this
          · cases ha
          · cases ha
          · cases hfm
        | _ =>
          rcases hfr with ha | ha | ha | ⟨f', hfm, e⟩
          · first | (cases ha; done) | (cases List.mem_singleton.1 ha; done)
          · first | (cases ha; done) | (cases List.mem_singleton.1 ha; done)
          · first | (cases ha; done) | (cases List.mem_singleton.1 ha; done)
          · cases hfm
    · cases h1
end

namespace ConvertStages

variable {fuel : Nat} {hash : Config → Nat} {sigOf : RustSig → RustFnSig} {policy : UnsafePolicy} {cfg : Config} {force : Bool}
  {cb : Callbacks} {items : List BindgenItem} {out : FnApiVec}
  (p : ConvertStages fuel hash sigOf policy cfg force cb items out)
include p

/-- The functions which are analysed are those of the header, and those made up. -/
theorem declared_fns : FnsCome p.found.apis p.allocs.apis := by
  have h1 : FnsCome p.found.apis p.typedefs.apis := by
    obtain ⟨s, l, ht, he, h⟩ := typedef_pass _ _ _ _ _ p.htypedefs
    rw [h]
    refine ((FnsCome.all2 ht.all2 ?_).append (fns_extra he)).held ((held_fromIter l).extend _)
    rintro x y ⟨_, _, hf⟩
    cases hf with
    | other => exact .inr (.inr (shape_map _ _ _ _).symm)
    | use => exact .inr (.inr rfl)
    | refused => exact .inl .marker
    | kept => exact .inr (.inr rfl)
  have h2 : FnsCome p.typedefs.apis p.pods.apis := by
    obtain ⟨_, s, l, -, ht, he, h⟩ := pod_pass _ _ _ _ _ _ p.hpods
    rw [h]
    refine ((FnsCome.all2 ht.all2 ?_).append (fns_extra he)).held ((held_fromIter l).extend _)
    rintro x y ⟨_, _, hf⟩
    cases hf with
    | other => exact .inr (.inr (shape_map _ _ _ _).symm)
    | enum => exact .inr (.inr rfl)
    | unusedParam => exact .inl .marker
    | notPublic => exact .inl .marker
    | refused => exact .inl .marker
    | kept => exact .inr (.inr rfl)
  have h3 : FnsCome p.pods.apis (replaceHopelessTypedefTargets cfg p.pods).apis := by
    refine FnsCome.all2 (hopeless_pass cfg p.pods p.pods_inv) ?_
    intro x y hf
    cases hf with
    | nested => exact .inl .marker
    | opaqueOfIgnored => exact .inl .opaqueType
    | opaqueOfFailed => exact .inl .opaqueType
    | typedef => exact .inr (.inr rfl)
    | @failed n e => exact .inr (.inl ⟨_, _, _, rfl⟩)
    | other => exact .inr (.inr rfl)
  exact (((h1.trans h2).trans h3).trans (fns_casts _)).trans (fns_allocs _)

/-- A delivered function whose C++ is made up is analysed under a name which is its name in C++. -/
theorem delivered_made_run {n : ApiName} {f : FuncToConvert} {a : FnAnalysis} (h : .function n f a ∈ out.apis)
    {x : CppFunctionBody × CppFunctionKind} (hs : f.syntheticCpp = some x) : MadeUp f ∧ a.ignoreReason = none ∧
      ∃ env s s' name soph pre, analyzeForeignFn env s name f soph pre = .done (s', a, n) ∧ name.cppName = none := by
  obtain ⟨hx, hi, -⟩ := p.delivered_function h
  obtain ⟨q⟩ := p.fn_stages
  have ho := items_from q hx
  generalize hg : (Api.function n f a : FnPre2Api) = g at ho
  cases ho with
  | @kept z hz hf =>
    cases z with
    | function => cases hf
    | _ => cases hg
  | @fn r hr hp =>
    cases hg
    cases runs_for q hr with
    | declared hd =>
      rcases p.declared_fns _ _ _ hd with ⟨hm, hc⟩ | ⟨u, hm⟩
      · exact ⟨hm, hi, _, _, _, _, _, _, q.trace.ok r hr, hc⟩
      · rw [parsed_not_made p.hparse hm] at hs; cases hs
    | member hw =>
      obtain ⟨-, _, _, _, _, -, -, -, -, -, e⟩ := hw
      rw [e] at hs; cases hs
    | subclassCtor hw =>
      obtain ⟨_, _, _, _, -, -, -, _, -, e⟩ := hw
      rw [subclassConstructor] at e
      obtain ⟨_, -, e⟩ := Option.map_eq_some_iff.1 e
      have e1 : _ = r.f := congrArg Prod.fst e
      rw [← e1] at hs
      cases hs
    | virtual_ hv =>
      cases hv with
      | again _ _ ha => rw [ha.2.2.2] at hp; cases hp
      | super_ _ _ _ ha => rw [ha.2.1] at hs; cases hs
  | override_ => cases hg
  | trait_ => cases hg
  | inst => cases hg
  | marker h => subst hg; cases h

/-- **C25, C27 (no other C++ is made up)**: the C++ of a delivered function is made up only for a cast, or to get or give
back memory. -/
theorem delivered_made {n : ApiName} {f : FuncToConvert} {a : FnAnalysis} (h : .function n f a ∈ out.apis)
    {x : CppFunctionBody × CppFunctionKind} (hs : f.syntheticCpp = some x) : MadeUp f :=
  (p.delivered_made_run h hs).1

/-- **C27**: the C++ of every delivered function which has C++ can be made exactly if its types can be written in C++. -/
theorem delivered_cpp_iff {n : ApiName} {f : FuncToConvert} {a : FnAnalysis} (h : .function n f a ∈ out.apis)
    (hd : f.specialMember = some .destructor → f.inputs.length = 1 ∧ f.output = none)
    {w : CppFunction} (hw : a.cppWrapper = some w) (m : CppNameMap) :
    (∃ e, generateCppFunctionInner m w false .rustCallsCpp false none = .ok e) ↔
      (∀ p ∈ a.paramDetails, Spellable m p.conversion.unwrappedType) ∧
      ∀ c, a.retConversion = some c → Spellable m c.unwrappedType := by
  obtain ⟨-, hx, -, env, s, s', name, soph, pre, hr⟩ := p.delivered_function h
  cases hs : f.syntheticCpp with
  | none => exact wrapper_made_iff hr hx hw hs hd m
  | some x =>
    refine made_possible_iff hr hx hs ?_ hw m
    intro ns id
    rcases p.delivered_made h hs with ⟨_, _, hm⟩ | ⟨_, hm | hm⟩ <;>
    · rw [hm.cpp] at hs
      cases hs
      intro e
      cases e

/-- **C25, C26, C65**: the C++ of every delivered function which has C++ does what the function is for. If its C++ is made up
it casts, or gets or gives back memory; otherwise it calls the function in C++. -/
theorem delivered_text {n : ApiName} {f : FuncToConvert} {a : FnAnalysis} (h : .function n f a ∈ out.apis)
    (hd : f.specialMember = some .destructor → f.inputs.length = 1 ∧ f.output = none)
    {w : CppFunction} (hw : a.cppWrapper = some w) {m : CppNameMap} (hp : PinOnly m) {e : ExtraCpp}
    (hg : generateCppFunctionInner m w false .rustCallsCpp false none = .ok e) :
    ∃ fn, e.declaration = some fn.render ∧ e.definition = none ∧
      ((∃ env name, name.name.ns = n.name.ns ∧ name.cppName = n.cppName ∧ WrapperText env m name f a fn) ∨
       (WrapperHead m a e fn ∧
        ((∃ derived base x u r, Casts f derived base ∧ fn.params.map (·.2) = [x] ∧ fn.body = .ret r ∧ r.uses = .convert u ∧
            u.uses = x) ∨
         (∃ ty r, Allocates f ty ∧ fn.params = [] ∧ fn.body = .ret r ∧ r.uses = .allocate (m.map ty)) ∨
         ∃ ty x, Frees f ty ∧ fn.params.map (·.2) = [x] ∧ fn.body = .run (.release (m.map ty) (.leaf x))))) := by
  obtain ⟨-, hx, -, env, s, s', name, soph, pre, hr⟩ := p.delivered_function h
  cases hs : f.syntheticCpp with
  | none =>
    obtain ⟨fn, h1, h2, h3⟩ := wrapper_text hr hx hw hs hd hp hg
    obtain ⟨t⟩ := analyze_steps hr
    obtain ⟨_, _, _, _, _, _, _, hn, _⟩ := finish_inv t.hfin
    exact ⟨fn, h1, h2, .inl ⟨env, name, by rw [hn], by rw [hn], h3⟩⟩
  | some x =>
    rcases p.delivered_made h hs with ⟨_, _, hm⟩ | ⟨_, hm | hm⟩
    · obtain ⟨fn, t, x, u, r, h1, h2, h3, h4, h5, -⟩ := cast_text hr hx hm hw hp hg
      exact ⟨fn, h1.declared, h1.undefined, .inr ⟨h1, .inl ⟨_, _, x, u, r, hm, by rw [h2]; rfl, h3, h4, h5⟩⟩⟩
    · obtain ⟨fn, h1, h2, r, h3, h4, -⟩ := alloc_text hr hx hm hw hp hg
      exact ⟨fn, h1.declared, h1.undefined, .inr ⟨h1, .inr (.inl ⟨_, r, hm, h2, h3, h4⟩)⟩⟩
    · obtain ⟨fn, t, x, h1, h2, h3⟩ := free_text hr hx hm hw hp hg
      exact ⟨fn, h1.declared, h1.undefined, .inr ⟨h1, .inr (.inr ⟨_, x, hm, by rw [h2]; rfl, h3⟩)⟩⟩

end ConvertStages

end Verif
