import Verif.CppWrapProps

/-!
# The C++ class standing for a Rust subclass

C26, C30 and C66 for the text of overrides, of the functions calling the superclass's version, and of constructors.
-/

set_option autoImplicit false

namespace Verif

/-- A member function. -/
structure CMethod where
  ret : String
  name : String
  params : List (String × String)
  isConst : Bool

/-- How the name, parameters and constness of a member function are written. -/
def CMethod.signature (f : CMethod) : String :=
  f.name ++ "(" ++ joinWith ", " (f.params.map fun p => p.1 ++ " " ++ p.2) ++ ")" ++ (if f.isConst then " const" else "")

/-- How a member function is declared in its class. -/
def CMethod.declaration (f : CMethod) : String := f.ret ++ " " ++ f.signature ++ ";"

/-- How a member function is defined outside its class. -/
def CMethod.definition (f : CMethod) (owner : String) (body : CStmt) : String :=
  f.ret ++ " " ++ (owner ++ "::") ++ f.signature ++ " " ++ ("" ++ " { " ++ body.render ++ " }")

/-- How a member function is defined within its class. -/
def CMethod.within (f : CMethod) (body : CStmt) : String :=
  "inline " ++ f.ret ++ " " ++ f.signature ++ " " ++ ("" ++ " { " ++ body.render ++ " }")

/-! ## Overrides -/

theorem inverted_ok {α : Type} {p : TypeConversionPolicy} {f : TypeConversionPolicy → Outcome α} {x : α}
    (h : p.inverted f = .ok x) :
    ∃ c, p.cppConversion.inverse = some c ∧ f { p with cppConversion := c } = .ok x := by
  rw [TypeConversionPolicy.inverted] at h
  split at h
  · rename_i q hq
    obtain ⟨c, h1, rfl⟩ := Option.map_eq_some_iff.1 hq
    exact ⟨c, h1, h⟩
  · cases h

theorem inverse_not_place {c d : CppConversionType} (h : c.inverse = some d) :
    c ≠ .ignoredPlacementPtrParameter ∧ d ≠ .ignoredPlacementPtrParameter := by
  cases c <;> cases h <;> exact ⟨by decide, by decide⟩

theorem override_values {m : CppNameMap} {b : Bool} : ∀ {l : List TypeConversionPolicy} {k : Nat}
    {values : List (Option String)},
    All2 (fun p s => cppArgValue m .cppCallsRust b p = .ok s) (l.zipIdx k) values →
    (∀ p ∈ l, p.isPlacementParameter = false) ∧
    ∃ es : List (CExpr String), values.filterMap id = es.map (CExpr.render id) ∧
      All2 (fun p e => ∃ c, p.1.cppConversion.inverse = some c ∧ Delivers false c p.2 e)
        (l.zip (paramNames b l.length k)) es := by
  intro l
  induction l with
  | nil => intro k values h; cases h; exact ⟨fun _ h => (by cases h), ⟨[], rfl, .nil⟩⟩
  | cons p l ih =>
    intro k values h
    rw [List.zipIdx_cons] at h
    cases h with
    | cons h1 h2 =>
      obtain ⟨hp, es, h3, h4⟩ := ih h2
      have hn : paramNames b (p :: l).length k = cppArgName b k :: paramNames b l.length (k + 1) := by
        simp [paramNames, List.range'_succ]
      obtain ⟨c, hc, h1⟩ := inverted_ok h1
      have hne := inverse_not_place hc
      refine ⟨?_, ?_⟩
      · intro q hq
        rcases List.mem_cons.1 hq with rfl | hq
        · simpa [TypeConversionPolicy.isPlacementParameter] using hne.1
        · exact hp q hq
      rcases convert_expr id h1 with ⟨rfl, hx⟩ | ⟨e, rfl, hd, _⟩
      · exact absurd hx (by simpa [TypeConversionPolicy.isPlacementParameter] using hne.2)
      · refine ⟨e :: es, by simpa using h3, ?_⟩
        rw [hn, List.zip_cons_cons]
        exact .cons ⟨c, hc, hd⟩ h4

/-- What an override does with what Rust gives back. -/
inductive OverrideResult (c : CCall) : Option TypeConversionPolicy → CStmt → Prop
  | none : OverrideResult c none (.run c)
  | ret {p : TypeConversionPolicy} {d : CppConversionType} {e : CExpr CCall} (h : p.cppConversion.inverse = some d)
      (he : Delivers true d c e) : OverrideResult c (some p) (.ret e)

/-- A member function of a subclass which hands a call to Rust: declared in the class and defined outside, it gives the
Rust function `rust` the Rust side of the object and then each of its arguments, in order, converted the other way round
from a call of C++, and returns what Rust gives it, converted likewise. -/
structure OverrideText (m : CppNameMap) (d : CppFunction) (rust owner name : String) (e : ExtraCpp) (f : CMethod)
    (body : CStmt) : Prop where
  declared : e.declaration = some f.declaration
  defined : e.definition = some (f.definition owner body)
  name : f.name = name
  isConst : f.isConst = true ↔ d.kind = .constMethod
  types : All2 (fun p t => ∃ c, p.cppConversion.inverse = some c ∧
    ({ p with cppConversion := c } : TypeConversionPolicy).unconvertedType m = .ok t) d.argumentConversion
    (f.params.map (·.1))
  result : (d.returnConversion = none ∧ f.ret = "void") ∨ ∃ p c, d.returnConversion = some p ∧
    p.cppConversion.inverse = some c ∧
    ({ p with cppConversion := c } : TypeConversionPolicy).convertedType m = .ok f.ret
  distinct : (f.params.map (·.2)).Nodup
  calls : ∃ es, All2 (fun p e => ∃ c, p.1.cppConversion.inverse = some c ∧ Delivers false c p.2 e)
    (d.argumentConversion.zip (f.params.map (·.2))) es ∧ OverrideResult (.rust rust es) d.returnConversion body

theorem joinCC_one (a : String) : joinCC [a] = a := rfl

theorem override_generated {m : CppNameMap} {d : CppFunction} {rust name : String} {owner : QName} {e : ExtraCpp}
    (hp : d.payload = .functionCall [] rust) (ho : d.passObsField = true) (hq : d.qualification = some owner)
    (hk : d.kind ≠ .synthesizedConstructor)
    (h : generateCppFunctionInner m d true .cppCallsRust true (some name) = .ok e) :
    ∃ f body, OverrideText m d rust owner.toCppName name e f body := by
  obtain ⟨t⟩ := gen_steps h
  obtain ⟨types, ht, hargs⟩ := params_written t.hargs
  obtain ⟨hnp, es, hvals, hes⟩ := override_values t.hvalues
  have hm : d.isAMethod true = false := rfl
  have hcall := t.hcall
  rw [hvals, hm, hp, if_neg (by decide)] at hcall
  have hc : t.call = (CCall.rust rust es).render := by
    have := congrArg Prod.fst (Outcome.ok.inj hcall)
    dsimp only at this
    rw [← this, List.nil_append, joinCC_one, callArgs, ho, hp]
    rfl
  have hf : t.fields = "" := (congrArg (fun x => x.2.1) (Outcome.ok.inj hcall)).symm
  have hplace : placementParam (d.isAMethod true) d.argumentConversion.zipIdx = none := by
    rw [placementParam, Option.map_eq_none_iff, List.find?_eq_none]
    intro p hp'
    have := hnp p.1 (List.fst_mem_of_mem_zipIdx hp')
    simp [this]
  have hfin := t.hfinal
  rw [hc, hplace] at hfin
  have hst : ∃ st, OverrideResult (.rust rust es) d.returnConversion st ∧ t.final ++ ";" = st.render := by
    cases hr : d.returnConversion with
    | none =>
      rw [hr] at hfin
      exact ⟨_, .none, by rw [← Outcome.ok.inj hfin]; rfl⟩
    | some p =>
      rw [hr, cppResult, cppReturn] at hfin
      obtain ⟨x, h1, hfin⟩ := Outcome.bind_ok hfin
      obtain ⟨c, hc, h1⟩ := inverted_ok h1
      rcases convert_expr CCall.render h1 with ⟨rfl, _⟩ | ⟨e, rfl, hd, _⟩
      · cases hfin
      · exact ⟨_, .ret hc hd, by rw [← Outcome.ok.inj hfin]; rfl⟩
  obtain ⟨st, hst, hstr⟩ := hst
  have hne : t.final ≠ "" := by
    intro h0
    rw [h0] at hstr
    generalize d.returnConversion = r at hst
    cases hst with
    | none =>
      have : "" = (CCall.rust rust es).render := (String.append_left_inj ";").1 hstr
      exact ne_append_right (by decide) this.symm
    | ret _ _ =>
      have := (String.append_left_inj ";").1 hstr
      exact ne_append_left (by decide) this.symm
  have htl : types.length = (paramNames (d.isAMethod true) d.argumentConversion.length 0).length := by
    rw [paramNames_length, ht.length_eq]
  have hn2 : ((types.zip (paramNames (d.isAMethod true) d.argumentConversion.length 0)).map (·.2)) =
      paramNames (d.isAMethod true) d.argumentConversion.length 0 := by
    rw [← List.unzip_snd, List.unzip_zip_right (by omega)]
  have hn1 : ((types.zip (paramNames (d.isAMethod true) d.argumentConversion.length 0)).map (·.1)) = types := by
    rw [← List.unzip_fst, List.unzip_zip_left (by omega)]
  have hsig : cppSignature d ((some name).getD d.wrapperFunctionName) t.args =
      (CMethod.mk t.ret name (types.zip (paramNames (d.isAMethod true) d.argumentConversion.length 0))
        (decide (d.kind = .constMethod))).signature := by
    rw [cppSignature, CMethod.signature, hargs]
    simp only [Option.getD_some, decide_eq_true_eq]
  refine ⟨⟨t.ret, name, types.zip (paramNames (d.isAMethod true) d.argumentConversion.length 0),
    decide (d.kind = .constMethod)⟩, st, ?_, ?_, rfl, by simp, ?_, ?_, ?_, ?_⟩
  · refine (congrArg ExtraCpp.declaration t.he).trans ?_
    show some _ = some _
    rw [if_pos rfl, hsig, CMethod.declaration]
  · refine (congrArg ExtraCpp.definition t.he).trans ?_
    rw [assembleCpp, if_pos rfl]
    show some _ = some _
    rw [hsig, CMethod.definition, CppFunction.qualificationText, hq, cppBody, hp, if_neg hne, hstr]
    rfl
  · show All2 _ _ (List.map _ (List.zip _ _))
    rw [hn1]
    exact ht.mono fun p s _ h => inverted_ok h
  · have hret := t.hret
    rw [cppRetType] at hret
    cases hr : d.returnConversion with
    | none =>
      rw [hr] at hret
      refine .inl ⟨rfl, ?_⟩
      cases hk' : d.kind with
      | synthesizedConstructor => exact absurd hk' hk
      | _ => rw [hk'] at hret; exact (Outcome.ok.inj hret).symm
    | some p =>
      rw [hr] at hret
      obtain ⟨c, hc, h1⟩ := inverted_ok hret
      exact .inr ⟨p, c, rfl, hc, h1⟩
  · show (List.map _ (List.zip _ _)).Nodup
    rw [hn2]
    exact paramNames_nodup _ _ _
  · refine ⟨es, ?_, hst⟩
    show All2 _ (d.argumentConversion.zip (List.map _ (List.zip _ _))) _
    rw [hn2]
    exact hes

/-- The C++ type of what was converted to this. -/
inductive CppSide (name : QName → String) : ConvKind → Ty → String → Prop
  | rvalue {mu : Bool} {t : Ty} {s : String} (h : CxxSpelling name t s) :
      CppSide name .rvalueReference (.ptr mu t) (s ++ "&&")
  | plain {k : ConvKind} {t : Ty} {s : String} (hk : k ≠ .rvalueReference) (h : CxxSpelling name t s) :
      CppSide name k t s

/-- The type in C++ of a parameter is written so. -/
def CppTakes (env : FnEnv) (name : QName → String) (ns : List String) (i : FnArg) (text : String) : Prop :=
  ∃ n ty st st' a, i = .typed n ty ∧ convertType env.conv ns env.fuel .outerType st ty = (st', .ok a) ∧
    CppSide name a.kind a.ty text

/-- The type in C++ of a result is written so. -/
def CppGives (env : FnEnv) (name : QName → String) (ns : List String) : Option Ty → String → Prop
  | none, text => text = "void"
  | some ty, text => ∃ st st' a, convertType env.conv ns env.fuel .outerType st ty = (st', .ok a) ∧
      CppSide name a.kind a.ty text

/-- What becomes of a parameter other than `this`, unless references are wrapped. -/
theorem param_kept {env : FnEnv} {s s' : FnState} {ns : List String} {diag : QName} {md : ArgMode} {i : FnArg}
    {p : FnArg × ArgumentAnalysis} (h : convertFnArg env s ns diag md i = .done (s', .ok p))
    (hi : ∀ t, i ≠ .typed "this" t) (hm : md.force = none) (hv : md.isMove = false)
    (hw : env.conv.cfg.unsafePolicy ≠ .referencesWrappedAllFunctionsSafe) :
    ∃ n ty st st' a, i = .typed n ty ∧ convertType env.conv ns env.fuel .outerType st ty = (st', .ok a) ∧
      ((∃ sub, p.2.conversion.rustConversion = .toBoxedUpHolder sub ∧ p.2.conversion.cppConversion = .move) ∨
        p.2.conversion.rustConversion = .fromRValueParamToPtr ∨
        (a.kind ≠ .rvalueReference ∧ p.2.conversion.unwrappedType = a.ty ∧ (p.2.conversion.cppConversion = .none ∨
          p.2.conversion.cppConversion = .move ∨ p.2.conversion.cppConversion = .fromUniquePtrToValue ∨
          p.2.conversion.cppConversion = .fromPtrToValue))) := by
  obtain ⟨nm, ty, self, into, hpre, h⟩ := convertFnArg_ok h
  cases hpre with
  | thisRef => exact absurd rfl (hi _)
  | thisPtr => exact absurd rfl (hi _)
  | other hn hval =>
    obtain ⟨st, a, conv, h1, _, h2, rfl⟩ := convertNamedArg_ok h
    refine ⟨_, _, _, st, a, rfl, h1, ?_⟩
    change (∃ sub, conv.rustConversion = _ ∧ conv.cppConversion = _) ∨ conv.rustConversion = _ ∨
      (_ ∧ conv.unwrappedType = a.ty ∧ (conv.cppConversion = _ ∨ conv.cppConversion = _ ∨ conv.cppConversion = _ ∨
        conv.cppConversion = _))
    have notPtr : (∀ mu e, a.ty ≠ .ptr mu e) → a.kind ≠ .rvalueReference := by
      intro hty hk
      have := kind_describes _ _ _ _ _ _ _ _ h1
      rw [hk] at this
      obtain ⟨_, _, this⟩ := this
      exact hty _ _ this
    rw [argConversion] at h2
    split at h2
    · obtain ⟨x, _, rfl⟩ := Option.map_eq_some_iff.1 h2; exact .inl ⟨x, rfl, rfl⟩
    · rw [if_neg (fun h => by rw [hm] at h; cases h.1)] at h2
      split at h2
      · rename_i segs args hty
        have hk := notPtr (by intro mu e h; rw [hty] at h; cases h)
        rw [pathConversion] at h2
        split at h2
        · cases h2
        · rw [if_neg (fun h => hw h.1)] at h2
          refine .inr (.inr ⟨hk, ?_⟩)
          rw [hty]
          split at h2
          · split at h2
            · cases h2; exact ⟨rfl, .inr (.inl rfl)⟩
            · cases h2; exact ⟨rfl, .inl rfl⟩
          · split at h2
            · cases h2; exact ⟨rfl, .inr (.inr (.inl rfl))⟩
            · split at h2 <;> cases h2
              · exact ⟨rfl, .inr (.inr (.inl rfl))⟩
              · exact ⟨rfl, .inr (.inr (.inr rfl))⟩
      · rename_i mu e hty
        rw [if_neg (by rw [hv]; decide)] at h2
        split at h2
        · cases h2; exact .inr (.inl rfl)
        · rename_i hk
          rw [if_neg (fun h => hw h.1)] at h2
          cases h2; exact .inr (.inr ⟨hk, by rw [hty], .inl rfl⟩)
      · rename_i mu l e hty
        rw [if_neg (fun h => hw h.1)] at h2
        cases h2
        exact .inr (.inr ⟨notPtr (by intro mu e h; rw [hty] at h; cases h), by rw [hty], .inl rfl⟩)
      · rename_i hne1 hne2 hne3
        cases h2
        exact .inr (.inr ⟨notPtr hne2, rfl, .inl rfl⟩)

theorem override_param {env : FnEnv} {s s' : FnState} {ns : List String} {diag : QName} {md : ArgMode} {i : FnArg}
    {p : FnArg × ArgumentAnalysis} (h : convertFnArg env s ns diag md i = .done (s', .ok p))
    (hi : ∀ t, i ≠ .typed "this" t) (hm : md.force = none) (hv : md.isMove = false)
    (hw : env.conv.cfg.unsafePolicy ≠ .referencesWrappedAllFunctionsSafe)
    (hr : p.2.conversion.rustConversion ≠ .fromRValueParamToPtr)
    {m : CppNameMap} (hp : PinOnly m) {c : CppConversionType} (hc : p.2.conversion.cppConversion.inverse = some c)
    {t : String} (ht : ({ p.2.conversion with cppConversion := c } : TypeConversionPolicy).unconvertedType m = .ok t) :
    CppTakes env m.map ns i t := by
  obtain ⟨n, ty, st, st', a, hi, h1, h⟩ := param_kept h hi hm hv hw
  refine ⟨n, ty, st, st', a, hi, h1, ?_⟩
  rcases h with ⟨_, _, h⟩ | h | ⟨hk, hu, h⟩
  · rw [h] at hc; cases hc
  · exact absurd h hr
  · refine .plain hk ?_
    have key : c ≠ .fromUniquePtrToValue → c ≠ .fromPtrToValue → CxxSpelling m.map a.ty t := by
      intro hc1 hc2
      rw [TypeConversionPolicy.unconvertedType] at ht
      split at ht
      · rename_i h; exact absurd h hc1
      · rename_i h; exact absurd h hc2
      · rw [← hu]; exact typeToCpp_spelling m hp _ ht
    rcases h with h | h | h | h <;> rw [h] at hc <;> cases hc <;> exact key (by decide) (by decide)

/-- What C++ passes on to C++ has the type it has in C++. -/
theorem passed_param {env : FnEnv} {s s' : FnState} {ns : List String} {diag : QName} {md : ArgMode} {i : FnArg}
    {p : FnArg × ArgumentAnalysis} (h : convertFnArg env s ns diag md i = .done (s', .ok p))
    (hi : ∀ t, i ≠ .typed "this" t) (hm : md.force = none) (hv : md.isMove = false)
    (hw : env.conv.cfg.unsafePolicy ≠ .referencesWrappedAllFunctionsSafe)
    (hr : p.2.conversion.rustConversion ≠ .fromRValueParamToPtr)
    (hh : ∀ sub, p.2.conversion.rustConversion ≠ .toBoxedUpHolder sub)
    {m : CppNameMap} (hp : PinOnly m) {t : String} (ht : p.2.conversion.convertedType m = .ok t) :
    CppTakes env m.map ns i t := by
  obtain ⟨n, ty, st, st', a, hi, h1, h⟩ := param_kept h hi hm hv hw
  refine ⟨n, ty, st, st', a, hi, h1, ?_⟩
  rcases h with ⟨_, h, _⟩ | h | ⟨hk, hu, h⟩
  · exact absurd h (hh _)
  · exact absurd h hr
  · refine .plain hk ?_
    rw [TypeConversionPolicy.convertedType] at ht
    rw [← hu]
    rcases h with h | h | h | h <;> rw [h] at ht <;> exact typeToCpp_spelling m hp _ ht

/-- The marker of what bindgen cannot see into, or of an unused parameter of a template. -/
def isTransparentMarker (t : Ty) : Prop :=
  ∃ args, t = .path ["__bindgen_marker_UnusedTemplateParam"] args ∨ t = .path ["__bindgen_marker_Opaque"] args

theorem rvalue_marked {env : ConvEnv} {ns : List String} {n : Nat} {ctx : ConvCtx} {st st' : Concretes} {ty : Ty}
    {a : Annotated Ty} (h : convertType env ns n ctx st ty = (st', .ok a)) (hk : a.kind = .rvalueReference) :
    typeIsReference ty true = true ∨ isTransparentMarker ty := by
  cases n with
  | zero => cases h
  | succ n =>
    have hs := convertType_ok h
    cases hs with
    | marker hm h1 hr =>
      right
      rw [unwrapMarker] at h1
      split at h1
      · rename_i hseg
        rw [isTransparentMarker]
        rcases hm with rfl | rfl
        · exact ⟨_, .inl (by rw [hseg])⟩
        · exact ⟨_, .inr (by rw [hseg])⟩
      · cases h1
    | lvalue h1 hr =>
      dsimp only at hk
      split at hk <;> cases hk
    | rvalue h1 _ _ =>
      left
      rw [unwrapReference, if_pos rfl, unwrapMarker] at h1
      split at h1
      · rename_i h2
        split at h2
        · rename_i hseg
          rw [hseg]
          rfl
        · cases h2
      · cases h1
    | ref => cases hk
    | array => cases hk
    | ptr => cases hk
    | done hp =>
      rcases prepared_inv hp with ⟨_, h⟩ | ⟨_, _, _, _, _, h⟩ | ⟨_, _, _, h⟩ | ⟨_, _, _, _, h⟩
      · cases h
      · cases h
      · cases h; cases hk
      · cases h; cases hk
    | plain hp hf =>
      rcases finishPath_ok hf with ⟨rfl, _⟩ | ⟨rfl, _⟩ <;> cases hk
    | concrete hp hb hi hq hn ht hf =>
      rcases finishPath_ok hf with ⟨rfl, _⟩ | ⟨rfl, _⟩ <;> cases hk
    | container hp hb hargs hk' hf =>
      rcases finishPath_ok hf with ⟨rfl, _⟩ | ⟨rfl, _⟩
      case inr => cases hk
      dsimp only at hk
      subst hk
      obtain ⟨_, _, _, _, _, _, _, _, h, _⟩ := confirmPayload_holder hk' (by decide)
      cases h


theorem ParamFates.each {env : FnEnv} {ns : List String} {diag : QName} {m : ArgMode} {s s' : FnState}
    {l : List FnArg} {ps : List (FnArg × ArgumentAnalysis)} {es : List Err}
    (h : ParamFates env ns diag m s l s' ps es) (he : es = []) :
    All2 (fun i p => ∃ s s', convertFnArg env s ns diag m i = .done (s', .ok p)) l ps := by
  induction h with
  | nil => exact .nil
  | good h _ ih => exact .cons ⟨_, _, h⟩ (ih he)
  | bad _ _ _ => cases he

theorem not_wrapped_return {env : FnEnv} (hw : env.conv.cfg.unsafePolicy ≠ .referencesWrappedAllFunctionsSafe)
    {a : Annotated Ty} {r : ReturnAnalysis} (h : plainReturn env a = some r) :
    r.conversion = some (.newUnconverted a.ty) ∧ r.placement = none := by
  rw [plainReturn] at h
  obtain ⟨c, hc, rfl⟩ := Option.map_eq_some_iff.1 h
  rw [if_neg (fun h => hw h.2)] at hc
  cases hc
  exact ⟨rfl, rfl⟩

theorem virtual_params {env : FnEnv} {s s' : FnState} {name n : ApiName} {f : FuncToConvert} {soph : Sophistication}
    {pre : Option String} {a : FnAnalysis} (t : FnSteps env s name f soph pre s' a n) {k : QName × ReceiverMutability}
    (hk : a.kind.virtualOf = some k) : t.ps' = t.ps := by
  rw [t.kind_eq] at hk
  have h := t.hre
  rw [reanalyzeParams.eq_def] at h
  dsimp only at h
  split at h
  · rename_i h1; rw [h1] at hk; cases hk
  · rename_i h1; rw [h1] at hk; cases hk
  · rename_i h1; rw [h1] at hk; cases hk
  · rename_i h1; rw [h1] at hk; cases hk
  · exact (congrArg (fun x => x.2.1) (PassRun.done.inj h)).symm

theorem simple_no_place {env : FnEnv} {s s' : FnState} {name n : ApiName} {f : FuncToConvert} {pre : Option String}
    {a : FnAnalysis} (t : FnSteps env s name f .simpleForSubclasses pre s' a n) : t.ret.placement = none := by
  rcases t.hret with ⟨hr, _⟩ | ⟨e, _, hr, _⟩
  · have hr := convertReturn_ok hr
    generalize f.output = out at hr
    generalize t.ret = ret at hr ⊢
    generalize t.s4 = s4 at hr
    cases hr with
    | nothing => rfl
    | plain h1 hp hr =>
      rw [plainReturn] at hr
      obtain ⟨c, hc, rfl⟩ := Option.map_eq_some_iff.1 hr
      rfl
    | value h1 ht hq hp hr =>
      rcases valueReturn_ok hr with ⟨p, _, h, _⟩ | ⟨_, _, rfl⟩
      · cases h
      · rfl
  · rw [hr]

/-- C66: unless references are wrapped or there is an rvalue reference, the override made for a virtual method has the
types the method has in C++, so that it overrides it. `f` is the method, whose first parameter is `this`, and `d` is made
from the analysis of it. -/
theorem override_types_partial {env : FnEnv} {s s' : FnState} {name n : ApiName} {f : FuncToConvert}
    {pre : Option String} {a : FnAnalysis}
    (h : analyzeForeignFn env s name f .simpleForSubclasses pre = .done (s', a, n)) (hx : a.ignoreReason = none)
    {k : QName × ReceiverMutability} (hk : a.kind.virtualOf = some k) {this : Ty} {rest : List FnArg}
    (hf : f.inputs = .typed "this" this :: rest) (hthis : ∀ i ∈ rest, ∀ t, i ≠ .typed "this" t)
    (hw : env.conv.cfg.unsafePolicy ≠ .referencesWrappedAllFunctionsSafe)
    (hr : ∀ p ∈ a.paramDetails, p.conversion.rustConversion ≠ .fromRValueParamToPtr)
    (ho : ∀ t, f.output = some t → ¬ isTransparentMarker t)
    {m : CppNameMap} (hp : PinOnly m) {d : CppFunction}
    (hd : d.argumentConversion = (a.paramDetails.drop 1).map (·.conversion)) (hdr : d.returnConversion = a.retConversion)
    {rust owner nm : String} {e : ExtraCpp} {fm : CMethod} {body : CStmt}
    (ht : OverrideText m d rust owner nm e fm body) :
    All2 (CppTakes env m.map name.name.ns) rest (fm.params.map (·.1)) ∧
      CppGives env m.map name.name.ns f.output fm.ret := by
  obtain ⟨t⟩ := analyze_steps h
  obtain ⟨_, _, he, hb, _, _⟩ := exposed_parts t hx
  have hof := exposed_offerable h hx
  have hps := virtual_params t hk
  have hdet := t.details_eq
  rw [simple_no_place t, hps, Option.toList_none, List.append_nil] at hdet
  constructor
  · have heach := t.hparams.each hb
    have htypes := ht.types
    rw [hd, hdet] at htypes
    rw [hdet] at hr
    rw [hf] at heach
    generalize t.ps = ps at heach htypes hr
    cases heach with
    | cons h1 h2 =>
      rename_i p ps
      have hr' : ∀ q ∈ ps, q.2.conversion.rustConversion ≠ .fromRValueParamToPtr := by
        intro q hq
        exact hr q.2 (List.mem_map_of_mem (f := Prod.snd) (List.mem_cons_of_mem _ hq))
      rw [List.map_cons, List.drop_one, List.tail_cons, List.map_map] at htypes
      generalize fm.params.map (·.1) = texts at htypes ⊢
      clear hf h1 hr
      induction h2 generalizing texts with
      | nil => cases htypes; exact .nil
      | cons h1 h2 ih =>
        cases htypes with
        | cons h3 h4 =>
          obtain ⟨s1, s2, h1⟩ := h1
          obtain ⟨c, hc, h3⟩ := h3
          exact .cons (override_param h1 (hthis _ (by simp)) rfl rfl hw (hr' _ (by simp)) hp hc h3)
            (ih (fun i hi => hthis i (by simp [hi])) (fun q hq => hr' q (by simp [hq])) _ h4)
  · have hres := ht.result
    rw [hdr, t.retConversion_eq] at hres
    have hrv := hof.result
    rcases t.hret with ⟨hret, _⟩ | ⟨e, _, _, he'⟩
    case inr => rw [he] at he'; cases he'
    have hret := convertReturn_ok hret
    generalize f.output = out at hret hrv ho
    generalize t.ret = ret at hret hres
    generalize t.s4 = s4 at hret
    have nonrv : ∀ {ty st st' b}, out = some ty → convertType env.conv name.name.ns env.fuel .outerType st ty = (st', .ok b) →
        b.kind ≠ .rvalueReference := by
      intro ty st st' b hout hc hkind
      rcases rvalue_marked hc hkind with h | h
      · have := hrv _ hout
        rw [h] at this
        cases this
      · exact ho _ hout h
    cases hret with
    | nothing =>
      rcases hres with ⟨_, h⟩ | ⟨p, c, h, _⟩
      · exact h
      · cases h
    | plain h1 hp' hr' =>
      obtain ⟨st, h1, _⟩ := convertBoxed_ok h1
      obtain ⟨hc, _⟩ := not_wrapped_return hw hr'
      rw [hc] at hres
      rcases hres with ⟨h, _⟩ | ⟨p, c, h, hi, h2⟩
      · cases h
      · cases h
        cases hi
        exact ⟨_, _, _, h1, .plain (nonrv rfl h1) (typeToCpp_spelling m hp _ h2)⟩
    | value h1 hty hq hpod hr' =>
      obtain ⟨st, h1, _⟩ := convertBoxed_ok h1
      rcases valueReturn_ok hr' with ⟨p, _, h, _⟩ | ⟨_, _, rfl⟩
      · cases h
      · rcases hres with ⟨h, _⟩ | ⟨p, c, h, hi, h2⟩
        · cases h
        · cases h
          cases hi
          exact ⟨_, _, _, h1, .plain (nonrv rfl h1) (typeToCpp_spelling m hp _ h2)⟩

/-! ## Calls of the superclass -/

theorem plain_values {m : CppNameMap} {b : Bool} : ∀ {l : List TypeConversionPolicy} {k : Nat}
    {values : List (Option String)},
    All2 (fun p s => cppArgValue m .cppCallsCpp b p = .ok s) (l.zipIdx k) values →
    values.filterMap id = ((paramNames b l.length k).map CExpr.leaf).map (CExpr.render id) := by
  intro l
  induction l with
  | nil => intro k values h; cases h; rfl
  | cons p l ih =>
    intro k values h
    rw [List.zipIdx_cons] at h
    cases h with
    | cons h1 h2 =>
      have := ih h2
      have hn : paramNames b (p :: l).length k = cppArgName b k :: paramNames b l.length (k + 1) := by
        simp [paramNames, List.range'_succ]
      cases h1
      rw [List.filterMap_cons, this, hn]
      rfl

/-- A member function of a subclass which calls a member function of the superclass: it passes on its parameters, in
order and as they are, and gives back the result. -/
structure SuperText (m : CppNameMap) (d : CppFunction) (path : List String) (e : ExtraCpp) (f : CMethod) : Prop where
  text : ∃ body, e.declaration = some (f.within body) ∧ e.definition = none ∧
    ((d.returnConversion = none ∧ body = .run (.function path ((f.params.map (·.2)).map .leaf))) ∨
      ∃ p, d.returnConversion = some p ∧ body = .ret (.leaf (.function path ((f.params.map (·.2)).map .leaf))))
  name : f.name = d.wrapperFunctionName
  isConst : f.isConst = true ↔ d.kind = .constMethod
  types : All2 (fun p t => p.convertedType m = .ok t) d.argumentConversion (f.params.map (·.1))
  result : (d.returnConversion = none ∧ f.ret = "void") ∨
    ∃ p, d.returnConversion = some p ∧ p.unconvertedType m = .ok f.ret
  distinct : (f.params.map (·.2)).Nodup

theorem super_generated {m : CppNameMap} {d : CppFunction} {ns : List String} {ty id : String} {e : ExtraCpp}
    (hp : d.payload = .staticMethodCall ns ty id) (ho : d.passObsField = false)
    (hk : d.kind ≠ .synthesizedConstructor) (hnp : ∀ p ∈ d.argumentConversion, p.isPlacementParameter = false)
    (h : generateCppFunctionInner m d true .cppCallsCpp false none = .ok e) :
    ∃ f, SuperText m d (ns ++ [ty, id]) e f := by
  obtain ⟨t⟩ := gen_steps h
  obtain ⟨types, ht, hargs⟩ := params_written t.hargs
  have hvals := plain_values t.hvalues
  have hm : d.isAMethod true = false := rfl
  have htl : types.length = (paramNames (d.isAMethod true) d.argumentConversion.length 0).length := by
    rw [paramNames_length, ht.length_eq]
  have hn2 : ((types.zip (paramNames (d.isAMethod true) d.argumentConversion.length 0)).map (·.2)) =
      paramNames (d.isAMethod true) d.argumentConversion.length 0 := by
    rw [← List.unzip_snd, List.unzip_zip_right (by omega)]
  have hn1 : ((types.zip (paramNames (d.isAMethod true) d.argumentConversion.length 0)).map (·.1)) = types := by
    rw [← List.unzip_fst, List.unzip_zip_left (by omega)]
  generalize hes : ((paramNames (d.isAMethod true) d.argumentConversion.length 0).map CExpr.leaf) = es at hvals
  have hcall := t.hcall
  rw [hvals, hm, hp, if_neg (by decide)] at hcall
  have hc : t.call = (CCall.function (ns ++ [ty, id]) es).render := by
    have := congrArg Prod.fst (Outcome.ok.inj hcall)
    dsimp only at this
    rw [← this, callArgs, ho, hp]
    rfl
  have hplace : placementParam (d.isAMethod true) d.argumentConversion.zipIdx = none := by
    rw [placementParam, Option.map_eq_none_iff, List.find?_eq_none]
    intro p hp'
    have := hnp p.1 (List.fst_mem_of_mem_zipIdx hp')
    simp [this]
  have hfin := t.hfinal
  rw [hc, hplace] at hfin
  have hst : ∃ st, ((d.returnConversion = none ∧ st = .run (.function (ns ++ [ty, id]) es)) ∨
      ∃ p, d.returnConversion = some p ∧ st = CStmt.ret (.leaf (.function (ns ++ [ty, id]) es))) ∧
      t.final ++ ";" = st.render := by
    cases hr : d.returnConversion with
    | none =>
      rw [hr] at hfin
      exact ⟨_, .inl ⟨rfl, rfl⟩, by rw [← Outcome.ok.inj hfin]; rfl⟩
    | some p =>
      rw [hr] at hfin
      exact ⟨_, .inr ⟨p, rfl, rfl⟩, by rw [← Outcome.ok.inj hfin]; rfl⟩
  obtain ⟨st, hst, hstr⟩ := hst
  have hne : t.final ≠ "" := by
    intro h0
    rw [h0] at hstr
    rcases hst with ⟨_, rfl⟩ | ⟨_, _, rfl⟩
    · have : "" = (CCall.function (ns ++ [ty, id]) es).render := (String.append_left_inj ";").1 hstr
      exact ne_append_right (by decide) this.symm
    · have := (String.append_left_inj ";").1 hstr
      exact ne_append_left (by decide) this.symm
  have hsig : cppSignature d ((none : Option String).getD d.wrapperFunctionName) t.args =
      (CMethod.mk t.ret d.wrapperFunctionName (types.zip (paramNames (d.isAMethod true) d.argumentConversion.length 0))
        (decide (d.kind = .constMethod))).signature := by
    rw [cppSignature, CMethod.signature, hargs]
    simp only [Option.getD_none, decide_eq_true_eq]
  refine ⟨⟨t.ret, d.wrapperFunctionName, types.zip (paramNames (d.isAMethod true) d.argumentConversion.length 0),
    decide (d.kind = .constMethod)⟩, ⟨st, ?_, congrArg ExtraCpp.definition t.he, ?_⟩, rfl, by simp, ?_, ?_, ?_⟩
  · refine (congrArg ExtraCpp.declaration t.he).trans ?_
    show some _ = some _
    rw [if_neg (by decide), hsig, CMethod.within, cppBody, hp, if_neg hne, hstr]
    rfl
  · dsimp only
    rw [hn2, hes]
    exact hst
  · show All2 _ _ (List.map _ (List.zip _ _))
    rw [hn1]
    exact ht
  · have hret := t.hret
    rw [cppRetType] at hret
    cases hr : d.returnConversion with
    | none =>
      rw [hr] at hret
      refine .inl ⟨rfl, ?_⟩
      cases hk' : d.kind with
      | synthesizedConstructor => exact absurd hk' hk
      | _ => rw [hk'] at hret; exact (Outcome.ok.inj hret).symm
    | some p =>
      rw [hr] at hret
      exact .inr ⟨p, rfl, hret⟩
  · show (List.map _ (List.zip _ _)).Nodup
    rw [hn2]
    exact paramNames_nodup _ _ _

/-! ## Constructors -/

/-- A constructor of a subclass: it keeps the Rust side it is given first and passes the rest on to the superclass. -/
structure CCtor where
  name : String
  peer : String × String
  params : List (String × String)
  superclass : String

/-- How a constructor of a subclass is written. A superclass which needs no arguments is not mentioned. -/
def CCtor.render (c : CCtor) : String :=
  "inline " ++ "" ++ " " ++ (c.name ++ "(" ++ joinWith ", " ((c.peer :: c.params).map fun p => p.1 ++ " " ++ p.2) ++ ")" ++ "") ++
    " " ++ ((": " ++ (if c.params = [] then "" else c.superclass ++ "(" ++ joinWith ", " (c.params.map (·.2)) ++ "), ") ++
      ("obs(std::move(" ++ c.peer.2 ++ "))")) ++ " { " ++ "" ++ " }")

theorem joinWith_ne {sep : String} {l : List String} (h : l ≠ []) (hn : ∀ s ∈ l, s ≠ "") : joinWith sep l ≠ "" := by
  match l, h with
  | [a], _ => exact hn a (by simp)
  | a :: b :: r, _ => exact ne_append_left (ne_append_left (hn a (by simp)))

theorem constructor_generated {m : CppNameMap} {d : CppFunction} {sup : String} {box : TypeConversionPolicy}
    {rest : List TypeConversionPolicy} {e : ExtraCpp} (hp : d.payload = .constructSuperclass sup)
    (ho : d.passObsField = false) (hk : d.kind = .synthesizedConstructor) (hr : d.returnConversion = none)
    (hc : d.argumentConversion = box :: rest)
    (h : generateCppFunctionInner m d false .cppCallsCpp false none = .ok e) :
    ∃ c : CCtor, e.declaration = some c.render ∧ e.definition = none ∧ c.name = d.wrapperFunctionName ∧
      c.superclass = sup ∧ box.convertedType m = .ok c.peer.1 ∧
      All2 (fun p t => p.convertedType m = .ok t) rest (c.params.map (·.1)) ∧
      (c.peer.2 :: c.params.map (·.2)).Nodup := by
  obtain ⟨t⟩ := gen_steps h
  obtain ⟨types, ht, hargs⟩ := params_written t.hargs
  have hvals := plain_values t.hvalues
  have hm : d.isAMethod false = false := by rw [CppFunction.isAMethod, hk]; rfl
  rw [hm, hc] at hvals hargs
  rw [hc] at ht
  have h0 : cppArgName false 0 = "arg0" := by decide
  have hnames : paramNames false (box :: rest).length 0 = "arg0" :: paramNames false rest.length 1 := by
    rw [← h0]
    simp [paramNames, List.range'_succ]
  rw [hnames] at hvals hargs
  cases ht with
  | cons h1 h2 =>
  rename_i t0 types
  have htl : types.length = (paramNames false rest.length 1).length := by
    rw [paramNames_length, h2.length_eq]
  have hn2 : ((types.zip (paramNames false rest.length 1)).map (·.2)) = paramNames false rest.length 1 := by
    rw [← List.unzip_snd, List.unzip_zip_right (by omega)]
  have hn1 : ((types.zip (paramNames false rest.length 1)).map (·.1)) = types := by
    rw [← List.unzip_fst, List.unzip_zip_left (by omega)]
  have hcall := t.hcall
  rw [hvals, hm, hp, if_neg (by decide)] at hcall
  have hcall := Outcome.ok.inj hcall
  have hcl : t.call = "" := (congrArg Prod.fst hcall).symm
  have hfl : t.fields = joinWith ", " (paramNames false rest.length 1) := by
    have := congrArg (fun x => x.2.1) hcall
    dsimp only at this
    rw [← this, callArgs, ho, hp]
    have hid : ∀ l : List String, (l.map CExpr.leaf).map (CExpr.render id) = l := by
      intro l
      rw [List.map_map]
      exact List.map_id l
    rw [hid]
    rfl
  have hfin := t.hfinal
  rw [hcl, hr] at hfin
  have hfin : t.final = "" := (Outcome.ok.inj hfin).symm
  have hret : t.ret = "" := by
    have := t.hret
    rw [cppRetType, hr, hk] at this
    exact (Outcome.ok.inj this).symm
  refine ⟨⟨d.wrapperFunctionName, (t0, "arg0"), types.zip (paramNames false rest.length 1), sup⟩, ?_,
    congrArg ExtraCpp.definition t.he, rfl, rfl, h1, ?_, ?_⟩
  · refine (congrArg ExtraCpp.declaration t.he).trans ?_
    show some _ = some _
    rw [if_neg (by decide), CCtor.render, cppSignature, hargs, if_neg (by rw [hk]; decide), cppBody, hp, hfin, hret,
      if_pos rfl, fieldAssignments, hfl, hn2]
    have hif : (if joinWith ", " (paramNames false rest.length 1) = "" then "" else
          sup ++ "(" ++ joinWith ", " (paramNames false rest.length 1) ++ "), ") =
        (if types.zip (paramNames false rest.length 1) = [] then "" else
          sup ++ "(" ++ joinWith ", " (paramNames false rest.length 1) ++ "), ") := by
      cases hrest : rest with
      | nil => simp [paramNames, joinWith]
      | cons x xs =>
        rw [if_neg, if_neg]
        · intro hz
          have := congrArg List.length hz
          rw [← hrest, List.length_zip, htl, paramNames_length, hrest] at this
          simp at this
        · refine joinWith_ne ?_ ?_
          · intro hz
            have := congrArg List.length hz
            rw [paramNames_length] at this
            cases this
          · intro s hs
            obtain ⟨i, _, rfl⟩ := List.mem_map.1 hs
            exact argName_ne
    rw [hif]
    dsimp only
    rfl
  · show All2 _ _ (List.map _ (List.zip _ _))
    rw [hn1]
    exact h2
  · show ("arg0" :: List.map _ (List.zip _ _)).Nodup
    rw [hn2, ← hnames]
    exact paramNames_nodup _ _ _

end Verif
