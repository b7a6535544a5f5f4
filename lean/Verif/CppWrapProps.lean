import Verif.CppGenProps

/-!
# The C++ wrapper of an analysed function

C25, C26 and C65 for whole functions: from the declaration in C++ to the text of the wrapper.
-/

set_option autoImplicit false

namespace Verif

/-! ## Which parameter is for the result -/

theorem convert_not_place {env : FnEnv} {s s' : FnState} {ns : List String} {diag : QName} {m : ArgMode} {i : FnArg}
    {p : FnArg × ArgumentAnalysis} (h : convertFnArg env s ns diag m i = .done (s', .ok p))
    (hm : m.force ≠ some .fromPlacementParamToNewReturn) : p.2.conversion.isPlacementParameter = false := by
  obtain ⟨nm, ty, self, into, _, h⟩ := convertFnArg_ok h
  obtain ⟨st, a, conv, _, _, hv, rfl⟩ := convertNamedArg_ok h
  show conv.isPlacementParameter = false
  rw [argConversion] at hv
  split at hv
  · obtain ⟨x, _, rfl⟩ := Option.map_eq_some_iff.1 hv; rfl
  · rw [if_neg (fun h => hm h.1)] at hv
    split at hv
    · rw [pathConversion] at hv
      split at hv
      · cases hv
      · split at hv
        · obtain ⟨x, _, rfl⟩ := Option.map_eq_some_iff.1 hv; rfl
        · split at hv
          · split at hv <;> cases hv <;> rfl
          · split at hv
            · cases hv; rfl
            · split at hv <;> cases hv <;> rfl
    · split at hv
      · cases hv; rfl
      · split at hv
        · cases hv; rfl
        · split at hv <;> cases hv <;> rfl
    · split at hv
      · split at hv <;> cases hv; rfl
      · cases hv; rfl
    · cases hv; rfl

theorem ParamFates.not_place {env : FnEnv} {ns : List String} {diag : QName} {m : ArgMode} {s s' : FnState}
    {l : List FnArg} {ps : List (FnArg × ArgumentAnalysis)} {es : List Err}
    (h : ParamFates env ns diag m s l s' ps es) (hm : m.force = none) :
    ∀ p ∈ ps, p.2.conversion.isPlacementParameter = false := by
  induction h with
  | nil => intro p hp; cases hp
  | good h _ ih =>
    intro p hp
    rcases List.mem_cons.1 hp with rfl | hp
    · exact convert_not_place h (by rw [hm]; simp)
    · exact ih p hp
  | bad _ _ ih => exact ih

theorem reanalyze_not_place {env : FnEnv} {s s' : FnState} {ns : List String} {diag : QName} {inputs : List FnArg}
    {m : ArgMode} {idx : Nat} {ps ps' : List (FnArg × ArgumentAnalysis)} {e : Option Err}
    (h : reanalyze env s ns diag inputs m idx ps = .done (s', ps', e))
    (hm : m.force ≠ some .fromPlacementParamToNewReturn)
    (hp : ∀ p ∈ ps, p.2.conversion.isPlacementParameter = false) :
    ∀ p ∈ ps', p.2.conversion.isPlacementParameter = false := by
  obtain ⟨i, _, ⟨q, h1, _, h2, _⟩ | ⟨x, _, h2, _⟩⟩ := reanalyze_done h
  · intro p hp'
    rw [h2] at hp'
    rcases List.mem_or_eq_of_mem_set hp' with hp' | rfl
    · exact hp p hp'
    · exact convert_not_place h1 hm
  · rw [h2]; exact hp

theorem reanalyzeParams_not_place {env : FnEnv} {s s' : FnState} {ns : List String} {diag : QName} {f : FuncToConvert}
    {soph : Sophistication} {kind : FnKind} {ps ps' : List (FnArg × ArgumentAnalysis)} {e : Option Err}
    (h : reanalyzeParams env s ns diag f soph kind ps = .done (s', ps', e))
    (hp : ∀ p ∈ ps, p.2.conversion.isPlacementParameter = false) :
    ∀ p ∈ ps', p.2.conversion.isPlacementParameter = false := by
  rw [reanalyzeParams.eq_def] at h
  dsimp only at h
  split at h
  · exact reanalyze_not_place h (by simp) hp
  · exact reanalyze_not_place h (by simp) hp
  · obtain ⟨⟨s1, ps1, e1⟩, h1, h⟩ := PassRun.bind_done.1 h
    cases h
    exact reanalyze_not_place h1 (by simp) hp
  · obtain ⟨⟨s1, ps1, e1⟩, h1, h⟩ := PassRun.bind_done.1 h
    obtain ⟨⟨s2, ps2, e2⟩, h2, h⟩ := PassRun.bind_done.1 h
    cases h
    exact reanalyze_not_place h2 (by simp) (reanalyze_not_place h1 (by simp) hp)
  · cases h; exact hp

theorem forResult_place {env : FnEnv} {s s' : FnState} {ns : List String} {diag : QName} {t : Ty}
    {p : FnArg × ArgumentAnalysis} (h : convertFnArg env s ns diag
        { thisAsReference := false, force := some .fromPlacementParamToNewReturn }
        (.typed "placement_return_type" (.ptr true t)) = .done (s', .ok p)) :
    p.2.conversion.isPlacementParameter = true := by
  obtain ⟨_, h⟩ := convertFnArg_other (by decide) h
  obtain ⟨st, a, conv, hc, _, hv, rfl⟩ := convertNamedArg_ok h
  obtain ⟨_, b, _, _, rfl⟩ := convert_ptr hc
  show conv.isPlacementParameter = true
  simp only [argConversion, and_self, if_true, Option.some.injEq] at hv
  rw [← hv]
  rfl

/-- C26: the parameters of an offered function are those in C++, in order, all of which are passed on, and at most one more,
which is not: the place for the result, there exactly if the result is to be put in a place. -/
theorem params_and_place {env : FnEnv} {s s' : FnState} {name n : ApiName} {f : FuncToConvert}
    {soph : Sophistication} {pre : Option String} {a : FnAnalysis}
    (h : analyzeForeignFn env s name f soph pre = .done (s', a, n)) (hx : a.ignoreReason = none) :
    ∃ ps rest, a.paramDetails = ps ++ rest ∧ All2 (StandsFor env name.name.ns) f.inputs ps ∧
      (∀ p ∈ ps, p.conversion.isPlacementParameter = false) ∧
      ((rest = [] ∧ ∀ c, a.retConversion = some c → c.populateReturnValue = true) ∨
        ∃ p c, rest = [p] ∧ p.conversion.isPlacementParameter = true ∧ a.retConversion = some c ∧
          c.populateReturnValue = false) := by
  obtain ⟨t⟩ := analyze_steps h
  obtain ⟨_, _, _, hb, _, _⟩ := exposed_parts t hx
  have ha := reanalyzeParams_aligned t.hre (t.hparams.aligned hb)
  refine ⟨t.ps'.map (·.2), t.ret.placement.toList.map (·.2), by rw [t.details_eq, List.map_append], ha.map_right, ?_, ?_⟩
  · intro p hp
    obtain ⟨q, hq, rfl⟩ := List.mem_map.1 hp
    exact reanalyzeParams_not_place t.hre (t.hparams.not_place rfl) q hq
  · rw [t.retConversion_eq]
    rcases t.hret with ⟨hr, _⟩ | ⟨e, _, hr, _⟩
    · have hr := convertReturn_ok hr
      generalize f.output = out at hr
      generalize t.ret = ret at hr ⊢
      generalize t.s4 = s4 at hr
      cases hr with
      | nothing => exact .inl ⟨rfl, fun _ h => by cases h⟩
      | plain h1 hp hr =>
        obtain ⟨c, h1, h2, h3, h4⟩ := plainReturn_conv hr
        obtain ⟨_, _, rfl⟩ := Option.map_eq_some_iff.1 hr
        exact .inl ⟨rfl, fun c' hc => by cases h1.symm.trans hc; exact h2⟩
      | value h1 ht hq hp hr =>
        rcases valueReturn_ok hr with ⟨p, _, _, h2, rfl⟩ | ⟨_, _, rfl⟩
        · exact .inr ⟨p.2, _, rfl, forResult_place h2, rfl, rfl⟩
        · exact .inl ⟨rfl, fun c' hc => by cases hc; rfl⟩
    · rw [hr]; exact .inl ⟨rfl, fun _ h => by cases h⟩

theorem passedOn_append {ps : List TypeConversionPolicy} {rest : List TypeConversionPolicy} {names : List String}
    (hl : names.length = (ps ++ rest).length) (h1 : ∀ p ∈ ps, p.isPlacementParameter = false)
    (h2 : ∀ p ∈ rest, p.isPlacementParameter = true) : passedOn (ps ++ rest) names = ps.zip names := by
  induction ps generalizing names with
  | nil =>
    rw [passedOn, List.nil_append, List.zip_nil_left, List.filter_eq_nil_iff]
    intro p hp
    simp [h2 _ (List.of_mem_zip hp).1]
  | cons p ps ih =>
    cases names with
    | nil => cases hl
    | cons n names =>
      have := ih (Nat.succ.inj hl) (fun q hq => h1 q (by simp [hq]))
      rw [passedOn] at this ⊢
      rw [List.cons_append, List.zip_cons_cons, List.filter_cons, if_pos (by simp [h1 p (by simp)]), this,
        List.zip_cons_cons]

theorem placeOf_append {ps : List TypeConversionPolicy} {rest : List TypeConversionPolicy} {names : List String}
    (hl : names.length = (ps ++ rest).length) (h1 : ∀ p ∈ ps, p.isPlacementParameter = false)
    (h2 : rest = [] ∨ ∃ p, rest = [p] ∧ p.isPlacementParameter = true) :
    placeOf (ps ++ rest) names = if rest = [] then none else names.getLast? := by
  induction ps generalizing names with
  | nil =>
    rcases h2 with rfl | ⟨p, rfl, hp⟩
    · rfl
    · match names, hl with
      | [x], _ => simp [placeOf, hp]
  | cons p ps ih =>
    cases names with
    | nil => cases hl
    | cons n names =>
      have := ih (Nat.succ.inj hl) (fun q hq => h1 q (by simp [hq]))
      rw [placeOf] at this ⊢
      rw [List.cons_append, List.zip_cons_cons, List.find?_cons, h1 p (by simp)]
      dsimp only
      rw [this]
      split
      · rfl
      · rename_i hr
        cases names with
        | nil =>
          exfalso
          rcases h2 with rfl | ⟨p, rfl, hp⟩
          · exact hr rfl
          · simp at hl
        | cons n' names => rw [List.getLast?_cons_cons]

/-! ## The whole wrapper -/

/-- The call made for a function of each kind. `called` is the C++ name of the function. -/
inductive WrapperCalls (m : CppNameMap) (ns : List String) (called : String) :
    FnKind → List (CExpr String) → CCall → Prop
  | construct {b : Bool} {q : QName} {o : CExpr String} {args : List (CExpr String)} :
      WrapperCalls m ns called (.method (.constructor b) q) (o :: args) (.construct o (m.map ⟨ns, q.name⟩) args)
  | copy {q : QName} {d : TraitMethodDetails} {o : CExpr String} {args : List (CExpr String)} :
      WrapperCalls m ns called (.traitMethod .copyConstructor q d) (o :: args) (.construct o (m.map ⟨ns, q.name⟩) args)
  | move {q : QName} {d : TraitMethodDetails} {o : CExpr String} {args : List (CExpr String)} :
      WrapperCalls m ns called (.traitMethod .moveConstructor q d) (o :: args) (.construct o (m.map ⟨ns, q.name⟩) args)
  | destroy {q : QName} {d : TraitMethodDetails} {o : CExpr String} {c : CCall}
      (h : CallsFor m (.destructor ns q.name) false [o] c) :
      WrapperCalls m ns called (.traitMethod .destructor q d) [o] c
  | static {q : QName} {args : List (CExpr String)} :
      WrapperCalls m ns called (.method .static q) args (.function (ns ++ [q.name, called]) args)
  | method {k : MethodKind} {q : QName} {o : CExpr String} {args : List (CExpr String)} (hs : k ≠ .static)
      (hc : ∀ b, k ≠ .constructor b) :
      WrapperCalls m ns called (.method k q) (o :: args) (.method o called args)
  | trait {k : TraitMethodKind} {q : QName} {d : TraitMethodDetails} {args : List (CExpr String)}
      (hk : k = .cast ∨ k = .alloc ∨ k = .dealloc) :
      WrapperCalls m ns called (.traitMethod k q d) args (.function (ns ++ [called]) args)
  | function {args : List (CExpr String)} : WrapperCalls m ns called .function args (.function (ns ++ [called]) args)

/-- What the wrapper of a function says and does. -/
structure WrapperText (env : FnEnv) (m : CppNameMap) (name : ApiName) (f : FuncToConvert) (a : FnAnalysis)
    (fn : CFunction) : Prop where
  called : fn.name = a.cxxbridgeName
  plain : fn.isConst = false
  takes : All2 (CxxSpelling m.map) (a.params.map FnArg.type) (fn.params.map (·.1))
  distinct : (fn.params.map (·.2)).Nodup
  gives : ResultSpelling m.map a.retType fn.ret
  does : ∃ ps rest es c, a.paramDetails = ps ++ rest ∧ All2 (StandsFor env name.name.ns) f.inputs ps ∧
    All2 (fun p e => Delivers false p.1.cppConversion p.2 e)
      ((ps.map (·.conversion)).zip (fn.params.map (·.2))) es ∧
    WrapperCalls m name.name.ns (name.cppName.getD a.rustName) a.kind es c ∧
    ((rest = [] ∧ ResultFor m c none a.retConversion fn.body) ∨
      ∃ p v, rest = [p] ∧ (fn.params.map (·.2)).getLast? = some v ∧ ResultFor m c (some v) a.retConversion fn.body)

theorem wrapper_fits {env : FnEnv} {s s' : FnState} {name n : ApiName} {f : FuncToConvert} {soph : Sophistication}
    {pre : Option String} {a : FnAnalysis} (h : analyzeForeignFn env s name f soph pre = .done (s', a, n))
    (hx : a.ignoreReason = none) {w : CppFunction} (hw : a.cppWrapper = some w) (hs : f.syntheticCpp = none)
    (hd : f.specialMember = some .destructor → f.inputs.length = 1 ∧ f.output = none) :
    PayloadFits w ∧ w.kind ≠ .synthesizedConstructor ∧ w.kind ≠ .constMethod := by
  obtain ⟨hconv, hret, hn, hobs, _⟩ := wrapper_conversions h hw
  obtain ⟨_, _, hdoes⟩ := wrapper_does h hw
  obtain ⟨ps, rest, hdet, hal, hnp, hrest⟩ := params_and_place h hx
  obtain ⟨ideal, base, ref, s1, s2, _, hb, _⟩ := bound_as h hx
  have hdoes := hdoes hs
  have hfilter : (w.argumentConversion.filter fun p => !p.isPlacementParameter).length = f.inputs.length := by
    rw [hconv, hdet, List.map_append, List.filter_append]
    have e1 : (ps.map (·.conversion)).filter (fun p => !p.isPlacementParameter) = ps.map (·.conversion) := by
      rw [List.filter_eq_self]
      intro c hc
      obtain ⟨p, hp, rfl⟩ := List.mem_map.1 hc
      simp [hnp p hp]
    have e2 : (rest.map (·.conversion)).filter (fun p => !p.isPlacementParameter) = [] := by
      rcases hrest with ⟨rfl, _⟩ | ⟨p, c, rfl, hp, _⟩
      · rfl
      · simp [hp]
    rw [e1, e2, List.append_nil, List.length_map, ← hal.length_eq]
  have hthis : ∀ {q : QName} {r : ReceiverMutability}, MemberOf f q (some r) → f.inputs ≠ [] := by
    intro q r hm hnil
    rcases hm with ⟨h1, _⟩ | ⟨h1, _, _⟩ | _
    · rw [hnil] at h1; cases h1
    · rw [hnil] at h1; cases h1
  rw [PayloadFits]
  generalize w.payload = pl at hdoes ⊢
  have hkind : ∀ k, w.kind = k → w.isAMethod false = (k = .method || k = .constMethod || k = .constructor) := by
    rintro k rfl; rfl
  generalize hwk : w.kind = wk at hdoes ⊢
  have hm := hkind _ hwk
  generalize w.isAMethod false = b at hm ⊢
  generalize hak : a.kind = ak at hdoes hb
  cases hdoes with
  | construct => subst hm; exact ⟨⟨hobs, rfl⟩, by simp, by simp⟩
  | copy => subst hm; exact ⟨⟨hobs, rfl⟩, by simp, by simp⟩
  | move => subst hm; exact ⟨⟨hobs, rfl⟩, by simp, by simp⟩
  | destroy =>
    subst hm
    cases hb with
    | destructor _ _ hsp => exact ⟨⟨hobs, rfl, by rw [hfilter, (hd hsp).1]⟩, by simp, by simp⟩
  | static => subst hm; exact ⟨⟨hobs, rfl⟩, by simp, by simp⟩
  | method hns hnc =>
    subst hm
    refine ⟨⟨hobs, fun _ hnil => ?_⟩, by simp, by simp⟩
    rw [hnil] at hfilter
    have hnil := List.eq_nil_of_length_eq_zero hfilter.symm
    cases hb with
    | copyOfMutable => exact hnc _ rfl
    | constructor_ => exact hnc _ rfl
    | static => exact hns rfl
    | method _ hm => exact hthis hm hnil
    | virtual_ _ hm => exact hthis hm hnil
    | pureVirtual _ hm => exact hthis hm hnil
  | trait hk => subst hm; exact ⟨⟨hobs, fun h => by cases h⟩, by simp, by simp⟩
  | function => subst hm; exact ⟨⟨hobs, fun h => by cases h⟩, by simp, by simp⟩

/-- C25, C26, C65: for every function which is offered and has a wrapper in C++, not counting those whose C++ is made up,
the text of the wrapper has the name the bridge calls and takes and returns just what the bridge says; it passes on one
argument for each parameter the function has in C++, in order; it calls that function, as what it is; and it returns the
result or puts it in the place given for it by the last parameter. -/
theorem wrapper_text {env : FnEnv} {s s' : FnState} {name n : ApiName} {f : FuncToConvert} {soph : Sophistication}
    {pre : Option String} {a : FnAnalysis} (h : analyzeForeignFn env s name f soph pre = .done (s', a, n))
    (hx : a.ignoreReason = none) {w : CppFunction} (hw : a.cppWrapper = some w) (hs : f.syntheticCpp = none)
    (hd : f.specialMember = some .destructor → f.inputs.length = 1 ∧ f.output = none)
    {m : CppNameMap} (hp : PinOnly m) {e : ExtraCpp}
    (hg : generateCppFunctionInner m w false .rustCallsCpp false none = .ok e) :
    ∃ fn, e.declaration = some fn.render ∧ e.definition = none ∧ WrapperText env m name f a fn := by
  obtain ⟨hfit, hk1, hk2⟩ := wrapper_fits h hx hw hs hd
  obtain ⟨fn, es, c, g⟩ := generated_function hp hfit hk1 hg
  obtain ⟨hconv, hret, hn, hobs, _⟩ := wrapper_conversions h hw
  obtain ⟨_, _, hdoes⟩ := wrapper_does h hw
  obtain ⟨ps, rest, hdet, hal, hnp, hrest⟩ := params_and_place h hx
  have hlen : (fn.params.map (·.2)).length = ((ps.map (·.conversion)) ++ (rest.map (·.conversion))).length := by
    have := g.types.length_eq
    rw [hconv, hdet] at this
    simp only [List.length_map, List.length_append] at this ⊢
    exact this.symm
  have hnp' : ∀ p ∈ ps.map (·.conversion), p.isPlacementParameter = false := by
    intro c hc
    obtain ⟨p, hp, rfl⟩ := List.mem_map.1 hc
    exact hnp p hp
  have hc : w.argumentConversion = ps.map (·.conversion) ++ rest.map (·.conversion) := by
    rw [hconv, hdet, List.map_append]
  refine ⟨fn, g.text.1, g.text.2.1, ?_, ?_, ?_, g.distinct, ?_, ps, rest, es, c, hdet, hal, ?_, ?_, ?_⟩
  · rw [g.name, hn]
  · cases hb : fn.isConst with
    | false => rfl
    | true => exact absurd (g.isConst.1 hb) hk2
  · have := g.types
    rw [hconv, List.map_map] at this
    rw [bridge_params_agree h]
    exact this
  · rw [bridge_return_agrees h, ← hret]
    exact g.result
  · have := g.passes
    rw [hc, passedOn_append hlen hnp'] at this
    · exact this
    · intro c hc
      obtain ⟨p, hp, rfl⟩ := List.mem_map.1 hc
      rcases hrest with ⟨rfl, _⟩ | ⟨q, c, rfl, hq, _⟩
      · cases hp
      · cases List.mem_singleton.1 hp; exact hq
  · have hcalls := g.calls
    have hdoes := hdoes hs
    have hkind : ∀ k, w.kind = k → w.isAMethod false = (k = .method || k = .constMethod || k = .constructor) := by
      rintro k rfl; rfl
    generalize hwk : w.kind = wk at hdoes
    have hm := hkind _ hwk
    generalize w.isAMethod false = b at hm hcalls
    generalize w.payload = pl at hdoes hcalls
    generalize a.kind = ak at hdoes ⊢
    cases hdoes with
    | construct => subst hm; cases hcalls; exact .construct
    | copy => subst hm; cases hcalls; exact .copy
    | move => subst hm; cases hcalls; exact .move
    | destroy =>
      subst hm
      have : ∃ o, es = [o] := by
        generalize name.name.ns = ns at hcalls
        cases hcalls <;> exact ⟨_, rfl⟩
      obtain ⟨o, rfl⟩ := this
      exact .destroy hcalls
    | static => subst hm; cases hcalls; exact .static
    | method hns hnc => subst hm; cases hcalls; exact .method hns hnc
    | trait hk => subst hm; cases hcalls; exact .trait hk
    | function => subst hm; cases hcalls; exact .function
  · have := g.returns
    rw [hc, hret, placeOf_append hlen hnp'] at this
    · rcases hrest with ⟨rfl, _⟩ | ⟨p, c', rfl, hq, hr, _⟩
      · exact .inl ⟨rfl, this⟩
      · refine .inr ?_
        rw [if_neg (by simp)] at this
        cases hv : (fn.params.map (·.2)).getLast? with
        | none =>
          rw [List.getLast?_eq_none_iff] at hv
          rw [hv] at hlen
          simp at hlen
        | some v => rw [hv] at this; exact ⟨p, v, rfl, rfl, this⟩
    · rcases hrest with ⟨rfl, _⟩ | ⟨q, c, rfl, hq, _⟩
      · exact .inl rfl
      · exact .inr ⟨_, rfl, hq⟩

end Verif
