import Verif.CppNeedsProps

/-!
# When C++ can be generated

C27: when the wrapper of a function which needs one can be made.
-/

set_option autoImplicit false

namespace Verif

/-- The types which can be written in C++: those without arrays and other oddities. -/
inductive Spellable (m : CppNameMap) : Ty → Prop
  | named {segs : List String} {args : List Ty} {q : QName} (hq : QName.ofTypePath segs = some q)
      (hp : m.map q ≠ "Pin") (ha : ∀ a ∈ args, Spellable m a) : Spellable m (.path segs args)
  | pin {segs : List String} {a : Ty} {r : List Ty} {q : QName} (hq : QName.ofTypePath segs = some q)
      (hp : m.map q = "Pin") (ha : Spellable m a) : Spellable m (.path segs (a :: r))
  | str {mu : Bool} {l : Option String} : Spellable m (.ref mu l (.path ["str"] []))
  | ref {mu : Bool} {l : Option String} {e : Ty} (he : Spellable m e) : Spellable m (.ref mu l e)
  | ptr {mu : Bool} {e : Ty} (he : Spellable m e) : Spellable m (.ptr mu e)

mutual
theorem typeToCpp_spellable (m : CppNameMap) : (t : Ty) → {s : String} → m.typeToCpp t = .ok s → Spellable m t
  | .path segs args, s, h => by
    rw [CppNameMap.typeToCpp.eq_def] at h
    dsimp only at h
    cases hq : QName.ofTypePath segs with
    | none => rw [hq] at h; cases h
    | some q =>
      rw [hq] at h
      dsimp only at h
      split at h
      · rename_i hpin
        match args, h with
        | a :: r, h => exact .pin hq hpin (typeToCpp_spellable m a h)
      · rename_i hpin
        match args, h with
        | [], h => exact .named hq hpin (by simp)
        | a :: r, h =>
          obtain ⟨s1, h1, h⟩ := Outcome.bind_ok h
          obtain ⟨ss, h2, h⟩ := Outcome.bind_ok h
          refine .named hq hpin ?_
          have ha := typeToCpp_spellable m a h1
          have hr := typesToCpp_spellable m r h2
          intro x hx
          rcases List.mem_cons.1 hx with rfl | hx
          · exact ha
          · exact hr x hx
  | .ref mu l e, s, h => by
    rw [CppNameMap.typeToCpp] at h
    split at h
    · rename_i he
      subst he
      exact .str
    · obtain ⟨s1, h1, h⟩ := Outcome.bind_ok h
      exact .ref (typeToCpp_spellable m e h1)
  | .ptr mu e, s, h => by
    rw [CppNameMap.typeToCpp] at h
    obtain ⟨s1, h1, h⟩ := Outcome.bind_ok h
    exact .ptr (typeToCpp_spellable m e h1)
  | .array _ _, s, h => by rw [CppNameMap.typeToCpp] at h; cases h
  | .other _, s, h => by rw [CppNameMap.typeToCpp] at h; cases h
theorem typesToCpp_spellable (m : CppNameMap) : (l : List Ty) → {ss : List String} → m.typesToCpp l = .ok ss →
    ∀ x ∈ l, Spellable m x
  | [], ss, h => by simp
  | a :: r, ss, h => by
    rw [CppNameMap.typesToCpp] at h
    obtain ⟨s1, h1, h⟩ := Outcome.bind_ok h
    obtain ⟨ss, h2, h⟩ := Outcome.bind_ok h
    have ha := typeToCpp_spellable m a h1
    have hr := typesToCpp_spellable m r h2
    intro x hx
    rcases List.mem_cons.1 hx with rfl | hx
    · exact ha
    · exact hr x hx
end

theorem typesToCpp_total {m : CppNameMap} : ∀ {l : List Ty}, (∀ a ∈ l, ∃ s, m.typeToCpp a = .ok s) →
    ∃ ss, m.typesToCpp l = .ok ss
  | [], _ => ⟨[], by rw [CppNameMap.typesToCpp]⟩
  | a :: r, h => by
    obtain ⟨s, hs⟩ := h a (by simp)
    obtain ⟨ss, hss⟩ := typesToCpp_total (l := r) fun x hx => h x (by simp [hx])
    refine ⟨s :: ss, ?_⟩
    rw [CppNameMap.typesToCpp, hs]
    show (m.typesToCpp r).bind _ = _
    rw [hss]
    rfl

/-- Just those types can be written. -/
theorem typeToCpp_iff {m : CppNameMap} {t : Ty} : (∃ s, m.typeToCpp t = .ok s) ↔ Spellable m t := by
  constructor
  · rintro ⟨s, h⟩; exact typeToCpp_spellable m t h
  · intro h
    induction h with
    | @named segs args q hq hp ha ih =>
      rw [CppNameMap.typeToCpp.eq_def]
      dsimp only
      rw [hq]
      dsimp only
      rw [if_neg hp]
      cases args with
      | nil => exact ⟨_, rfl⟩
      | cons a r =>
        obtain ⟨s, hs⟩ := ih a (by simp)
        obtain ⟨ss, hss⟩ := typesToCpp_total fun x hx => ih x (List.mem_cons_of_mem _ hx)
        dsimp only
        rw [hs, hss]
        exact ⟨_, rfl⟩
    | @pin segs a r q hq hp ha ih =>
      rw [CppNameMap.typeToCpp.eq_def]
      dsimp only
      rw [hq]
      dsimp only
      rw [if_pos hp]
      exact ih
    | str => exact ⟨_, by rw [CppNameMap.typeToCpp, if_pos rfl]⟩
    | @ref mu l e he ih =>
      rw [CppNameMap.typeToCpp]
      split
      · exact ⟨_, rfl⟩
      · obtain ⟨s, hs⟩ := ih
        rw [hs]
        exact ⟨_, rfl⟩
    | @ptr mu e he ih =>
      rw [CppNameMap.typeToCpp]
      obtain ⟨s, hs⟩ := ih
      rw [hs]
      exact ⟨_, rfl⟩

theorem unconverted_iff {m : CppNameMap} {p : TypeConversionPolicy} :
    (∃ s, p.unconvertedType m = .ok s) ↔ Spellable m p.unwrappedType := by
  rw [← typeToCpp_iff, TypeConversionPolicy.unconvertedType]
  split
  · rw [TypeConversionPolicy.uniquePtrWrapped]
    constructor
    · rintro ⟨s, h⟩; obtain ⟨t, h1, _⟩ := Outcome.bind_ok h; exact ⟨t, h1⟩
    · rintro ⟨s, h⟩; rw [h]; exact ⟨_, rfl⟩
  · constructor
    · rintro ⟨s, h⟩; obtain ⟨t, h1, _⟩ := Outcome.bind_ok h; exact ⟨t, h1⟩
    · rintro ⟨s, h⟩; rw [h]; exact ⟨_, rfl⟩
  · exact Iff.rfl

theorem converted_iff {m : CppNameMap} {p : TypeConversionPolicy}
    (hp : p.cppConversion = .fromReferenceToPointer → ∃ mu e, p.unwrappedType = .ptr mu e) :
    (∃ s, p.convertedType m = .ok s) ↔ Spellable m p.unwrappedType := by
  rw [← typeToCpp_iff, TypeConversionPolicy.convertedType]
  split
  · rw [TypeConversionPolicy.uniquePtrWrapped]
    constructor
    · rintro ⟨s, h⟩; obtain ⟨t, h1, _⟩ := Outcome.bind_ok h; exact ⟨t, h1⟩
    · rintro ⟨s, h⟩; rw [h]; exact ⟨_, rfl⟩
  · rename_i hc
    obtain ⟨mu, e, he⟩ := hp hc
    rw [he]
    dsimp only
    rw [CppNameMap.typeToCpp]
  · exact Iff.rfl

theorem convert_total {m : CppNameMap} {p : TypeConversionPolicy} {v : String} {b : Bool}
    (h : Spellable m p.unwrappedType) : ∃ r, p.cppConvert m v b = .ok r ∧ (r = none ↔ p.isPlacementParameter = true) := by
  obtain ⟨s, hs⟩ := unconverted_iff.2 h
  rw [TypeConversionPolicy.isPlacementParameter]
  cases hc : p.cppConversion <;> rw [TypeConversionPolicy.cppConvert.eq_def, hc] <;> dsimp only
  case fromValueToUniquePtr => rw [hs]; exact ⟨_, rfl, by simp⟩
  all_goals exact ⟨_, rfl, by simp⟩

theorem mapOutcome_total {α β : Type} {f : α → Outcome β} {l : List α} (h : ∀ a ∈ l, ∃ b, f a = .ok b) :
    ∃ bs, mapOutcome f l = .ok bs := by
  induction l with
  | nil => exact ⟨[], rfl⟩
  | cons a l ih =>
    obtain ⟨b, hb⟩ := h a (by simp)
    obtain ⟨bs, hbs⟩ := ih fun x hx => h x (by simp [hx])
    exact ⟨b :: bs, by rw [mapOutcome, hb]; show (mapOutcome f l).bind _ = _; rw [hbs]; rfl⟩

theorem mem_zipIdx_fst {α : Type} {l : List α} {k : Nat} {p : α × Nat} (h : p ∈ l.zipIdx k) : p.1 ∈ l := by
  have := List.mem_map_of_mem (f := Prod.fst) h
  rwa [List.zipIdx_map_fst] at this

/-- The conversion of a result is one which results have. -/
def ResultFits (p : TypeConversionPolicy) : Prop :=
  p.isPlacementParameter = false ∧
    (p.cppConversion = .fromReferenceToPointer → ∃ mu e, p.unwrappedType = .ptr mu e)

/-- C27: a function of the right shape can be made for calls from Rust if the types it mentions can be written. -/
theorem generate_total {m : CppNameMap} {d : CppFunction}
    (hrecv : ∀ ns id, d.payload = .placementNew ns id → d.isAMethod false = true ∧
      ∃ p ∈ d.argumentConversion, p.isPlacementParameter = false)
    (hr : ∀ p, d.returnConversion = some p → ResultFits p ∧ Spellable m p.unwrappedType)
    (ha : ∀ p ∈ d.argumentConversion, Spellable m p.unwrappedType) :
    ∃ e, generateCppFunctionInner m d false .rustCallsCpp false none = .ok e := by
  rw [generateCppFunctionInner]
  obtain ⟨args, h1⟩ := mapOutcome_total (f := cppParam m .rustCallsCpp (d.isAMethod false))
    (l := d.argumentConversion.zipIdx) (by
      intro p hp
      obtain ⟨s, hs⟩ := unconverted_iff.2 (ha p.1 (mem_zipIdx_fst hp))
      exact ⟨_, by rw [cppParam, cppArgType, hs]; rfl⟩)
  obtain ⟨ret, h2⟩ : ∃ ret, cppRetType m .rustCallsCpp d = .ok ret := by
    rw [cppRetType]
    dsimp only
    cases hd : d.returnConversion with
    | none => exact ⟨_, rfl⟩
    | some p =>
      dsimp only
      split
      · exact (converted_iff (hr p hd).1.2).2 (hr p hd).2
      · exact ⟨_, rfl⟩
  obtain ⟨values, h3⟩ := mapOutcome_total (f := cppArgValue m .rustCallsCpp (d.isAMethod false))
    (l := d.argumentConversion.zipIdx) (by
      intro p hp
      obtain ⟨r, h, _⟩ := convert_total (v := cppArgName (d.isAMethod false) p.2) (b := false)
        (ha p.1 (mem_zipIdx_fst hp))
      exact ⟨r, h⟩)
  rw [h1, h2, h3]
  show ∃ e, (payloadCall m _ _ _).bind _ = .ok e
  obtain ⟨c, h4⟩ : ∃ c, payloadCall m (if d.isAMethod false then (values.filterMap id).head? else none)
      (callArgs d (d.isAMethod false) (values.filterMap id)) d.payload = .ok c := by
    cases hp : d.payload with
    | placementNew ns cls =>
      obtain ⟨hm, p, hp, hnp⟩ := hrecv ns cls hp
      rw [payloadCall.eq_def, if_pos hm]
      dsimp only
      have hv := mapOutcome_ok.1 h3
      obtain ⟨i, hi⟩ : ∃ i, (p, i) ∈ d.argumentConversion.zipIdx := by
        obtain ⟨i, hi, rfl⟩ := List.getElem_of_mem hp
        exact ⟨i, List.mem_zipIdx_iff_getElem?.2 (by simp [hi])⟩
      obtain ⟨v, hv, hcv⟩ := hv.left hi
      obtain ⟨r, h, hr⟩ := convert_total (v := cppArgName (d.isAMethod false) i) (b := false) (ha p hp)
      have : v = r := Outcome.ok.inj (hcv.symm.trans h)
      subst this
      cases v with
      | none => rw [hr.1 rfl] at hnp; cases hnp
      | some s =>
        have : s ∈ values.filterMap id := List.mem_filterMap.2 ⟨_, hv, rfl⟩
        cases hh : (values.filterMap id).head? with
        | none =>
          rw [List.head?_eq_none_iff] at hh
          rw [hh] at this
          cases this
        | some x => exact ⟨_, rfl⟩
    | functionCall ns id =>
      rw [payloadCall.eq_def]
      dsimp only
      split <;> exact ⟨_, rfl⟩
    | _ => exact ⟨_, rfl⟩
  rw [h4]
  show ∃ e, (cppResult m _ _ _ _).bind _ = .ok e
  obtain ⟨call, h5⟩ : ∃ call, cppResult m .rustCallsCpp
      (placementParam (d.isAMethod false) d.argumentConversion.zipIdx) c.1 d.returnConversion = .ok call := by
    cases hd : d.returnConversion with
    | none => exact ⟨_, rfl⟩
    | some p =>
      obtain ⟨r, h, hn⟩ := convert_total (v := c.1) (b := true) (hr p hd).2
      rw [cppResult, cppReturn, h]
      cases r with
      | none => rw [(hr p hd).1.1] at hn; cases hn.1 rfl
      | some s =>
        show ∃ call, (match placementParam _ _ with
          | some pl => _
          | none => _ : Outcome String) = .ok call
        split
        · obtain ⟨t, ht⟩ := typeToCpp_iff.2 (hr p hd).2
          rw [ht]
          exact ⟨_, rfl⟩
        · exact ⟨_, rfl⟩
  rw [h5]
  exact ⟨_, rfl⟩

theorem generate_needs {m : CppNameMap} {d : CppFunction} {e : ExtraCpp}
    (h : generateCppFunctionInner m d false .rustCallsCpp false none = .ok e) :
    (∀ p ∈ d.argumentConversion, Spellable m p.unwrappedType) ∧
    ∀ p, d.returnConversion = some p → ResultFits p →
      (p.populateReturnValue = true ∨ ∃ q ∈ d.argumentConversion, q.isPlacementParameter = true) →
      Spellable m p.unwrappedType := by
  obtain ⟨t⟩ := gen_steps h
  constructor
  · intro p hp
    obtain ⟨i, hi⟩ : ∃ i, (p, i) ∈ d.argumentConversion.zipIdx := by
      obtain ⟨i, hi, rfl⟩ := List.getElem_of_mem hp
      exact ⟨i, List.mem_zipIdx_iff_getElem?.2 (by simp [hi])⟩
    obtain ⟨s, _, hs⟩ := t.hargs.left hi
    rw [cppParam] at hs
    obtain ⟨x, hx, _⟩ := Outcome.bind_ok hs
    exact unconverted_iff.1 ⟨x, hx⟩
  · intro p hp hfit hor
    have h2 := t.hret
    rw [cppRetType, hp] at h2
    dsimp only at h2
    split at h2
    · exact (converted_iff hfit.2).1 ⟨_, h2⟩
    · rename_i hpop
      rcases hor with hor | ⟨q, hq, hpl⟩
      · exact absurd hor hpop
      · have hplace : ∃ v, placementParam (d.isAMethod false) d.argumentConversion.zipIdx = some v := by
          rw [placementParam]
          cases hf : List.find? (fun p => p.1.isPlacementParameter) d.argumentConversion.zipIdx with
          | some x => exact ⟨_, rfl⟩
          | none =>
            obtain ⟨i, hi⟩ : ∃ i, (q, i) ∈ d.argumentConversion.zipIdx := by
              obtain ⟨i, hi, rfl⟩ := List.getElem_of_mem hq
              exact ⟨i, List.mem_zipIdx_iff_getElem?.2 (by simp [hi])⟩
            have := List.find?_eq_none.1 hf _ hi
            exact absurd hpl this
        obtain ⟨v, hv⟩ := hplace
        have h5 := t.hfinal
        rw [hp, hv, cppResult, cppReturn] at h5
        obtain ⟨r, _, h5⟩ := Outcome.bind_ok h5
        cases r with
        | none => cases h5
        | some s =>
          obtain ⟨t, ht, _⟩ := Outcome.bind_ok h5
          exact typeToCpp_iff.1 ⟨t, ht⟩

theorem result_fits {env : FnEnv} {s s' : FnState} {name n : ApiName} {f : FuncToConvert}
    {soph : Sophistication} {pre : Option String} {a : FnAnalysis}
    (h : analyzeForeignFn env s name f soph pre = .done (s', a, n)) {c : TypeConversionPolicy}
    (hc : a.retConversion = some c) : ResultFits c := by
  obtain ⟨t⟩ := analyze_steps h
  rw [t.retConversion_eq] at hc
  rcases t.hret with ⟨hr, _⟩ | ⟨e, _, hr, _⟩
  · have hr := convertReturn_ok hr
    generalize f.output = out at hr
    generalize t.ret = ret at hr hc
    generalize t.s4 = s4 at hr
    cases hr with
    | nothing => cases hc
    | plain h1 hp hr =>
      rw [plainReturn] at hr
      obtain ⟨c', hc', rfl⟩ := Option.map_eq_some_iff.1 hr
      cases hc
      split at hc'
      · rw [TypeConversionPolicy.returnReferenceIntoWrapper.eq_def] at hc'
        split at hc'
        · cases hc'; exact ⟨rfl, fun _ => ⟨_, _, rfl⟩⟩
        · obtain ⟨x, _, rfl⟩ := Option.map_eq_some_iff.1 hc'; exact ⟨rfl, fun _ => ⟨_, _, rfl⟩⟩
        · cases hc'
      · cases hc'; exact ⟨rfl, fun h => by cases h⟩
    | value h1 ht hq hp hr =>
      rcases valueReturn_ok hr with ⟨p, _, _, h2, rfl⟩ | ⟨_, _, rfl⟩ <;> cases hc <;> exact ⟨rfl, fun h => by cases h⟩
  · rw [hr] at hc; cases hc

theorem built_in_place {env : FnEnv} {s s' : FnState} {name n : ApiName} {f : FuncToConvert}
    {soph : Sophistication} {pre : Option String} {a : FnAnalysis}
    (h : analyzeForeignFn env s name f soph pre = .done (s', a, n))
    (hk : (∃ b q, a.kind = .method (.constructor b) q) ∨ (∃ q d, a.kind = .traitMethod .copyConstructor q d) ∨
      ∃ q d, a.kind = .traitMethod .moveConstructor q d) : f.inputs ≠ [] := by
  obtain ⟨t⟩ := analyze_steps h
  have hre := t.hre
  have key : ∀ {s s' : FnState} {ns : List String} {diag : QName} {m : ArgMode} {ps ps' : List (FnArg × ArgumentAnalysis)}
      {e : Option Err}, reanalyze env s ns diag f.inputs m 0 ps = .done (s', ps', e) → f.inputs ≠ [] := by
    intro s s' ns diag m ps ps' e h hnil
    obtain ⟨i, hi, _⟩ := reanalyze_done h
    rw [hnil] at hi
    cases hi
  rw [t.kind_eq] at hk
  rw [reanalyzeParams.eq_def] at hre
  dsimp only at hre
  rcases hk with ⟨b, q, hk⟩ | ⟨q, d, hk⟩ | ⟨q, d, hk⟩
  · rw [hk] at hre
    exact key hre
  · rw [hk] at hre
    obtain ⟨⟨s1, ps1, e1⟩, h1, _⟩ := PassRun.bind_done.1 hre
    exact key h1
  · rw [hk] at hre
    obtain ⟨⟨s1, ps1, e1⟩, h1, _⟩ := PassRun.bind_done.1 hre
    exact key h1

/-- C27: the wrapper of a function which is offered can be made exactly if the types of its parameters and result can be
written in C++. -/
theorem wrapper_made_iff {env : FnEnv} {s s' : FnState} {name n : ApiName} {f : FuncToConvert} {soph : Sophistication}
    {pre : Option String} {a : FnAnalysis} (h : analyzeForeignFn env s name f soph pre = .done (s', a, n))
    (hx : a.ignoreReason = none) {w : CppFunction} (hw : a.cppWrapper = some w) (hs : f.syntheticCpp = none)
    (hd : f.specialMember = some .destructor → f.inputs.length = 1 ∧ f.output = none) (m : CppNameMap) :
    (∃ e, generateCppFunctionInner m w false .rustCallsCpp false none = .ok e) ↔
      (∀ p ∈ a.paramDetails, Spellable m p.conversion.unwrappedType) ∧
      ∀ c, a.retConversion = some c → Spellable m c.unwrappedType := by
  obtain ⟨hconv, hret, hn, hobs, _⟩ := wrapper_conversions h hw
  obtain ⟨_, _, hdoes⟩ := wrapper_does h hw
  obtain ⟨ps, rest, hdet, hal, hnp, hrest⟩ := params_and_place h hx
  constructor
  · rintro ⟨e, hg⟩
    obtain ⟨h1, h2⟩ := generate_needs hg
    constructor
    · intro p hp
      exact h1 _ (by rw [hconv]; exact List.mem_map_of_mem hp)
    · intro c hc
      refine h2 c (by rw [hret, hc]) (result_fits h hc) ?_
      rcases hrest with ⟨_, hrest⟩ | ⟨p, c', rfl, hp, _⟩
      · exact .inl (hrest c hc)
      · exact .inr ⟨p.conversion, by rw [hconv, hdet]; simp, hp⟩
  · rintro ⟨h1, h2⟩
    refine generate_total ?_ ?_ ?_
    · intro ns id hp
      have hdoes := hdoes hs
      obtain ⟨hfit, _⟩ := wrapper_fits h hx hw hs hd
      have hfit := hfit.2
      rw [hp] at hfit
      refine ⟨hfit, ?_⟩
      have hne : f.inputs ≠ [] := by
        apply built_in_place h
        rw [hp] at hdoes
        generalize w.kind = wk at hdoes
        generalize a.kind = ak at hdoes ⊢
        generalize name.name.ns = ns' at hdoes
        cases hdoes with
        | construct => exact .inl ⟨_, _, rfl⟩
        | copy => exact .inr (.inl ⟨_, _, rfl⟩)
        | move => exact .inr (.inr ⟨_, _, rfl⟩)
      cases ps with
      | nil => exact absurd (List.eq_nil_of_length_eq_zero hal.length_eq) hne
      | cons p ps =>
        exact ⟨p.conversion, by rw [hconv, hdet]; simp, hnp p (by simp)⟩
    · intro c hc
      rw [hret] at hc
      exact ⟨result_fits h hc, h2 c hc⟩
    · intro p hp
      rw [hconv] at hp
      obtain ⟨x, hx, rfl⟩ := List.mem_map.1 hp
      exact h1 x hx

end Verif
