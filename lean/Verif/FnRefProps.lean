import Verif.FnParamProps
import Verif.KnownTypesProps

/-!
# References in the signatures of functions, dependencies, and examples
-/

set_option autoImplicit false

namespace Verif

/-- The analyser is set up as the pipeline does it. -/
def FnEnv.Real (env : FnEnv) : Prop :=
  ∃ fuel hash policy cfg force apis s, FnEnv.ofApis fuel hash policy cfg force apis = some (env, s)

/-- `Pin` is one of the types which can be passed by value. -/
theorem real_pin {env : FnEnv} (h : env.Real) : ⟨["core", "pin"], "Pin"⟩ ∈ env.podSafe := by
  obtain ⟨fuel, hash, policy, cfg, force, apis, s, h⟩ := h
  rw [FnEnv.ofApis] at h
  obtain ⟨m, hm, hs⟩ := pod_safe_types_spec
  rw [hm] at h
  obtain ⟨l, _, h⟩ := Option.map_eq_some_iff.1 h
  cases h
  obtain ⟨d, hd⟩ := known_pin
  have hsafe : SpecByValueSafe d := by
    have : OptAll SpecByValueSafe (knownGet ⟨["core", "pin"], "Pin"⟩) := by
      rw [knownGet_eq_lit]; decide +kernel
    rw [hd] at this
    exact this
  refine List.mem_append_right _ (List.mem_filterMap.2 ⟨(⟨["core", "pin"], "Pin"⟩, true), ?_, rfl⟩)
  exact AMap.get?_mem ((hs _ true).2 ⟨d, hd, by simp [hsafe]⟩)

/-- A Rust type which borrows something: `&T`, `&mut T` or `Pin<&mut T>`. -/
def borrows : Ty → Bool
  | .ref .. => true
  | .path ["core", "pin", "Pin"] [.ref ..] => true
  | _ => false

/-- A Rust type which borrows something to change it: `Pin<&mut T>`. -/
def borrowsMut : Ty → Bool
  | .path ["core", "pin", "Pin"] [.ref true _ _] => true
  | _ => false

theorem borrows_iff {t : Ty} : borrows t = true ↔
    (∃ mu l e, t = .ref mu l e) ∨ ∃ mu l e, t = .path ["core", "pin", "Pin"] [.ref mu l e] := by
  rw [borrows.eq_def]
  split
  · simp
  · simp
  · rename_i h1 h2
    simp only [Bool.false_eq_true, false_iff, not_or, not_exists]
    exact ⟨h1, h2⟩

theorem borrowsMut_iff {t : Ty} : borrowsMut t = true ↔ ∃ l e, t = .path ["core", "pin", "Pin"] [.ref true l e] := by
  rw [borrowsMut.eq_def]
  split
  · simp
  · rename_i h2
    simp only [Bool.false_eq_true, false_iff, not_exists]
    exact h2

/-- Only mutable references become `Pin<…>`. -/
theorem kind_pin (env : ConvEnv) (ns : List String) (n : Nat) (ctx : ConvCtx) (st st' : Concretes)
    (ty : Ty) (a : Annotated Ty) (h : convertType env ns n ctx st ty = (st', .ok a)) {x : Ty} {l : List Ty}
    (ht : a.ty = .path ["core", "pin", "Pin"] (x :: l)) : a.kind = .mutableReference := by
  induction n generalizing ctx st st' ty a with
  | zero => cases h
  | succ n ih =>
    cases convertType_ok h with
    | marker hm h' hr => exact ih _ _ _ _ _ hr ht
    | lvalue h' hr =>
      rename_i mu e b
      cases mu with
      | false => cases ht
      | true => rfl
    | rvalue h' hp hr => cases ht
    | ref hr => cases ht
    | array hr => cases ht
    | ptr hp hr => cases ht
    | done hp =>
      rcases prepared_inv hp with ⟨_, e⟩ | ⟨_, _, _, _, _, e⟩ | ⟨mu, e', he, e⟩ | ⟨t, he, h1, h2, e⟩
      · cases e
      · cases e
      · cases e; cases ht
      · cases e; exact absurd ht (h1 _ _)
    | plain hp hf =>
      rcases finishPath_ok hf with ⟨rfl, _⟩ | ⟨rfl, _⟩
      · cases (Ty.path.inj ht).2
      · cases ht
    | concrete hp hb hi hqn hig ht' hf =>
      rcases finishPath_ok hf with ⟨rfl, _⟩ | ⟨rfl, _⟩
      · cases (Ty.path.inj ht).2
      · cases ht
    | container hp hb hargs hk hf =>
      rcases finishPath_ok hf with ⟨rfl, _⟩ | ⟨rfl, segs, args, q', h1, h2, h3⟩
      · have e := (Ty.path.inj ht).1
        obtain ⟨d, hd, hgb⟩ := container_known hb
        have hd' := substitutePath_details (r := ⟨["core", "pin"], "Pin"⟩) hd (by rw [e]; rfl)
        have hpin : cxxGenericBehavior ⟨["core", "pin"], "Pin"⟩ = .not := by decide_known
        rw [cxxGenericBehavior, hd'] at hpin
        exact absurd (hgb.symm.trans hpin) hb
      · cases ht

/-- No typedef stands for a constant reference. -/
def NoReferenceTypedef (env : ConvEnv) : Prop := ∀ q mu lt e, AMap.get? env.typedefs q ≠ some (.ref mu lt e)

theorem kind_borrows {env : ConvEnv} {ns : List String} {n : Nat} {ctx : ConvCtx} {st st' : Concretes}
    {ty : Ty} {a : Annotated Ty} (htd : NoReferenceTypedef env) (h : convertType env ns n ctx st ty = (st', .ok a)) :
    (borrows a.ty = true ↔ a.kind = .reference ∨ a.kind = .mutableReference) ∧
      (borrowsMut a.ty = true ↔ a.kind = .mutableReference) := by
  have hd := kind_describes _ _ _ _ _ _ _ _ h
  have hp := fun x l (e : a.ty = .path ["core", "pin", "Pin"] (x :: l)) => kind_pin _ _ _ _ _ _ _ _ h e
  refine ⟨⟨fun hb => ?_, fun hk => ?_⟩, ⟨fun hb => ?_, fun hk => ?_⟩⟩
  · rcases borrows_iff.1 hb with ⟨mu, l, e, ht⟩ | ⟨mu, l, e, ht⟩
    · cases hk : a.kind with
      | reference => exact .inl rfl
      | mutableReference => exact .inr rfl
      | regular => exact absurd ht ((kind_regular_partial _ _ _ _ _ _ _ _ htd h hk).2 mu l e)
      | pointer => rw [hk] at hd; obtain ⟨_, _, hd⟩ := hd; rw [ht] at hd; cases hd
      | rvalueReference => rw [hk] at hd; obtain ⟨_, _, hd⟩ := hd; rw [ht] at hd; cases hd
      | subclassHolder x => rw [hk] at hd; obtain ⟨_, _, _, _, hd, _⟩ := hd; rw [ht] at hd; cases hd
    · exact .inr (hp _ _ ht)
  · rcases hk with hk | hk <;> rw [hk] at hd
    · obtain ⟨mu, l, e, ht⟩ := hd; rw [ht]; rfl
    · obtain ⟨e, ht⟩ := hd; rw [ht]; rfl
  · obtain ⟨l, e, ht⟩ := borrowsMut_iff.1 hb
    exact hp _ _ ht
  · rw [hk] at hd
    obtain ⟨e, ht⟩ := hd; rw [ht]; rfl

/-- C++ references are passed as Rust references. -/
def FnEnv.PlainReferences (env : FnEnv) : Prop :=
  env.conv.cfg.unsafePolicy ≠ .referencesWrappedAllFunctionsSafe

theorem convertedRustType_borrows {p : TypeConversionPolicy} (h : borrows p.convertedRustType = true) :
    p.convertedRustType = p.unwrappedType := by
  rw [TypeConversionPolicy.convertedRustType] at h ⊢
  split
  · rename_i hc; simp only [hc] at h; cases h
  · rename_i hc; simp only [hc] at h; cases h
  · rfl

theorem borrows_of_mut {t : Ty} (h : borrowsMut t = true) : borrows t = true := by
  obtain ⟨l, e, rfl⟩ := borrowsMut_iff.1 h
  rfl

/-- Where references are plain, a parameter borrows in the bridge exactly if it does in C++. -/
theorem argConversion_borrows {env : FnEnv} (hreal : ⟨["core", "pin"], "Pin"⟩ ∈ env.podSafe) (hpl : env.PlainReferences)
    {m : ArgMode} {a : Annotated Ty} {self pl : Bool} {conv : TypeConversionPolicy}
    (hd : Describes a.kind a.ty) (hpt : m.force = some .fromPlacementParamToNewReturn → ∃ mu e, a.ty = .ptr mu e)
    (h : argConversion env m a self pl = some conv) :
    borrows conv.convertedRustType = borrows a.ty ∧ borrowsMut conv.convertedRustType = borrowsMut a.ty := by
  rw [argConversion] at h
  split at h
  · rename_i holder hk
    obtain ⟨x, _, rfl⟩ := Option.map_eq_some_iff.1 h
    rw [hk] at hd
    obtain ⟨segs, s, args, r, ht, _⟩ := hd
    rw [ht]
    refine ⟨?_, ?_⟩
    · have : ¬ borrows (.path segs (.path s args :: r)) = true := by
        intro hb
        rcases borrows_iff.1 hb with ⟨mu, l, e, ht⟩ | ⟨mu, l, e, ht⟩ <;> cases ht
      rw [Bool.not_eq_true] at this
      rw [this]; rfl
    · have : ¬ borrowsMut (.path segs (.path s args :: r)) = true := by
        intro hb
        obtain ⟨l, e, ht⟩ := borrowsMut_iff.1 hb
        cases ht
      rw [Bool.not_eq_true] at this
      rw [this]; rfl
  · split at h
    · rename_i hf
      obtain ⟨mu, e, ht⟩ := hpt hf.1
      cases h
      rw [ht]
      exact ⟨rfl, rfl⟩
    · split at h
      · rename_i segs args ht
        rw [ht]
        rw [pathConversion] at h
        by_cases hp : segs = ["core", "pin", "Pin"]
        · subst hp
          have hq : QName.ofTypePath ["core", "pin", "Pin"] = some ⟨["core", "pin"], "Pin"⟩ := by decide
          have hl : lacksCopyConstructor ⟨["core", "pin"], "Pin"⟩ = false := by decide_known
          rw [hq] at h
          dsimp only at h
          rw [if_neg (by exact fun hh => hpl hh.1), if_pos hreal, hl, if_neg (by simp)] at h
          cases h
          exact ⟨rfl, rfl⟩
        · have hb : borrows (.path segs args) = false := by
            rw [← Bool.not_eq_true]
            intro hb
            rcases borrows_iff.1 hb with ⟨mu, l, e, ht⟩ | ⟨mu, l, e, ht⟩
            · cases ht
            · exact hp (Ty.path.inj ht).1
          have hm : borrowsMut (.path segs args) = false := by
            rw [← Bool.not_eq_true]
            intro hb'
            rw [borrows_of_mut hb'] at hb
            cases hb
          rw [hb, hm]
          split at h
          · cases h
          · rw [if_neg (by exact fun hh => hpl hh.1)] at h
            split at h
            · split at h <;> cases h
              · exact ⟨hb, hm⟩
              · exact ⟨hb, hm⟩
            · split at h
              · cases h; exact ⟨rfl, rfl⟩
              · split at h <;> cases h
                · exact ⟨rfl, rfl⟩
                · exact ⟨rfl, rfl⟩
      · rename_i mu e ht
        rw [ht]
        split at h
        · cases h; exact ⟨rfl, rfl⟩
        · split at h
          · cases h; exact ⟨rfl, rfl⟩
          · split at h <;> cases h
            · exact ⟨rfl, rfl⟩
            · exact ⟨rfl, rfl⟩
      · rename_i mu l e ht
        rw [ht]
        rw [if_neg (by exact fun hh => hpl hh.1)] at h
        cases h; exact ⟨rfl, rfl⟩
      · cases h; exact ⟨rfl, rfl⟩

/-- The mode asking for a place for the result is used for pointers only. -/
def SoundMode (m : ArgMode) (i : FnArg) : Prop :=
  m.force = some .fromPlacementParamToNewReturn → ∃ n mu t, i = .typed n (.ptr mu t) ∧ n ≠ "this"

theorem convertFnArg_borrows {env : FnEnv} (hreal : ⟨["core", "pin"], "Pin"⟩ ∈ env.podSafe) (hpl : env.PlainReferences)
    (htd : NoReferenceTypedef env.conv) {s s' : FnState} {ns : List String} {diag : QName} {m : ArgMode} {i : FnArg}
    {p : FnArg × ArgumentAnalysis} (h : convertFnArg env s ns diag m i = .done (s', .ok p)) (hm : SoundMode m i) :
    p.2.hasLifetime = borrows p.2.conversion.convertedRustType ∧
      p.2.isMutableReference = borrowsMut p.2.conversion.convertedRustType := by
  obtain ⟨nm, ty, self, into, hp, h⟩ := convertFnArg_ok h
  obtain ⟨st, a, conv, hc, _, hv, rfl⟩ := convertNamedArg_ok h
  obtain ⟨h1, h2⟩ := kind_borrows htd hc
  have hpt : m.force = some .fromPlacementParamToNewReturn → ∃ mu e, a.ty = .ptr mu e := by
    intro hf
    obtain ⟨n, mu, t, hi, hn⟩ := hm hf
    subst hi
    cases hp with
    | thisRef => exact absurd rfl hn
    | thisPtr => exact absurd rfl hn
    | other => obtain ⟨_, b, _, _, rfl⟩ := convert_ptr hc; exact ⟨_, _, rfl⟩
  obtain ⟨h3, h4⟩ := argConversion_borrows hreal hpl (kind_describes _ _ _ _ _ _ _ _ hc) hpt hv
  refine ⟨?_, ?_⟩
  · show (decide (a.kind = .reference) || decide (a.kind = .mutableReference)) = borrows conv.convertedRustType
    rw [h3, Bool.eq_iff_iff, h1]
    simp
  · show decide (a.kind = .mutableReference) = borrowsMut conv.convertedRustType
    rw [h4, Bool.eq_iff_iff, h2]
    simp

/-- Something true of every parameter converted without asking for a place for the result stays true when parameters are
converted again. -/
theorem reanalyze_all {env : FnEnv} {s s' : FnState} {ns : List String} {diag : QName} {inputs : List FnArg}
    {m : ArgMode} {idx : Nat} {ps ps' : List (FnArg × ArgumentAnalysis)} {e : Option Err}
    {P : FnArg × ArgumentAnalysis → Prop}
    (h : reanalyze env s ns diag inputs m idx ps = .done (s', ps', e)) (hf : ∀ p ∈ ps, P p)
    (hc : ∀ s s' i p, convertFnArg env s ns diag m i = .done (s', .ok p) → P p) : ∀ p ∈ ps', P p := by
  obtain ⟨i, _, ⟨p, h1, _, rfl, _⟩ | ⟨x, _, rfl, _⟩⟩ := reanalyze_done h
  · intro q hq
    rcases List.mem_or_eq_of_mem_set hq with hq | rfl
    · exact hf q hq
    · exact hc _ _ _ _ h1
  · exact hf

theorem reanalyzeParams_all {env : FnEnv} {s s' : FnState} {ns : List String} {diag : QName} {f : FuncToConvert}
    {soph : Sophistication} {kind : FnKind} {ps ps' : List (FnArg × ArgumentAnalysis)} {e : Option Err}
    {P : FnArg × ArgumentAnalysis → Prop}
    (h : reanalyzeParams env s ns diag f soph kind ps = .done (s', ps', e)) (hf : ∀ p ∈ ps, P p)
    (hc : ∀ s s' m i p, m.force ≠ some .fromPlacementParamToNewReturn →
      convertFnArg env s ns diag m i = .done (s', .ok p) → P p) : ∀ p ∈ ps', P p := by
  rw [reanalyzeParams.eq_def] at h
  dsimp only at h
  split at h
  · exact reanalyze_all h hf fun _ _ _ _ => hc _ _ _ _ _ (by simp)
  · exact reanalyze_all h hf fun _ _ _ _ => hc _ _ _ _ _ (by simp)
  · obtain ⟨⟨s1, ps1, e1⟩, h1, h⟩ := PassRun.bind_done.1 h
    cases h
    exact reanalyze_all h1 hf fun _ _ _ _ => hc _ _ _ _ _ (by simp)
  · obtain ⟨⟨s1, ps1, e1⟩, h1, h⟩ := PassRun.bind_done.1 h
    obtain ⟨⟨s2, ps2, e2⟩, h2, h⟩ := PassRun.bind_done.1 h
    cases h
    exact reanalyze_all h2 (reanalyze_all h1 hf fun _ _ _ _ => hc _ _ _ _ _ (by simp))
      fun _ _ _ _ => hc _ _ _ _ _ (by simp)
  · cases h; exact hf

theorem ParamFates.all {env : FnEnv} {ns : List String} {diag : QName} {m : ArgMode} {s s' : FnState}
    {l : List FnArg} {ps : List (FnArg × ArgumentAnalysis)} {es : List Err} {P : FnArg × ArgumentAnalysis → Prop}
    (h : ParamFates env ns diag m s l s' ps es)
    (hc : ∀ s s' i p, convertFnArg env s ns diag m i = .done (s', .ok p) → P p) : ∀ p ∈ ps, P p := by
  induction h with
  | nil => intro p hp; cases hp
  | good h _ ih =>
    intro p hp
    rcases List.mem_cons.1 hp with rfl | hp
    · exact hc _ _ _ _ h
    · exact ih p hp
  | bad _ _ ih => exact ih

/-- The parameter for the result, if there is one. -/
theorem FnSteps.placement {env : FnEnv} {s s' : FnState} {name n : ApiName} {f : FuncToConvert} {soph : Sophistication}
    {pre : Option String} {a : FnAnalysis} (t : FnSteps env s name f soph pre s' a n) :
    ∀ p ∈ t.ret.placement.toList, ∃ s ty, convertFnArg env s name.name.ns ⟨name.name.ns, t.diag⟩
        { thisAsReference := false, force := some .fromPlacementParamToNewReturn }
        (.typed "placement_return_type" (.ptr true ty)) = .done (s', .ok p) := by
  intro p hp
  rcases t.hret with ⟨hr, _⟩ | ⟨e, _, hr, _⟩
  · have hr := convertReturn_ok hr
    generalize f.output = out at hr
    generalize t.ret = ret at hr hp
    generalize t.s4 = s4 at hr
    cases hr with
    | nothing => cases hp
    | plain h1 hp' hr => obtain ⟨c, _, rfl⟩ := Option.map_eq_some_iff.1 hr; cases hp
    | value h1 ht hq hp' hr =>
      rcases valueReturn_ok hr with ⟨q, _, _, h2, rfl⟩ | ⟨_, _, rfl⟩
      · cases List.mem_singleton.1 hp
        exact ⟨_, _, h2⟩
      · cases hp
  · rw [hr] at hp; cases hp

theorem FnSteps.all_borrow {env : FnEnv} {s s' : FnState} {name n : ApiName} {f : FuncToConvert} {soph : Sophistication}
    {pre : Option String} {a : FnAnalysis} (t : FnSteps env s name f soph pre s' a n)
    (hreal : ⟨["core", "pin"], "Pin"⟩ ∈ env.podSafe) (hpl : env.PlainReferences) (htd : NoReferenceTypedef env.conv) :
    ∀ p ∈ t.ps' ++ t.ret.placement.toList, p.2.hasLifetime = borrows p.2.conversion.convertedRustType ∧
      p.2.isMutableReference = borrowsMut p.2.conversion.convertedRustType := by
  intro p hp
  rcases List.mem_append.1 hp with hp | hp
  · exact reanalyzeParams_all t.hre
      (t.hparams.all fun _ _ _ _ h => convertFnArg_borrows hreal hpl htd h fun hf => by cases hf)
      (fun _ _ _ _ _ hm h => convertFnArg_borrows hreal hpl htd h fun hf => absurd hf hm) p hp
  · obtain ⟨s, ty, h⟩ := t.placement p hp
    exact convertFnArg_borrows hreal hpl htd h fun _ => ⟨_, _, _, rfl, by decide⟩

/-- The result, where references are plain. -/
theorem ReturnFate.borrow {env : FnEnv} {s s' : FnState} {ns : List String} {diag : QName} {soph : Sophistication}
    {ty : Option Ty} {r : ReturnAnalysis} (h : ReturnFate env s ns diag soph ty s' r) (hpl : env.PlainReferences)
    (htd : NoReferenceTypedef env.conv) {c : TypeConversionPolicy} (hc : r.conversion = some c)
    (hp : c.populateReturnValue = true) :
    r.wasReference = borrows c.unconvertedRustType ∧ r.wasMutableReference = borrowsMut c.unconvertedRustType := by
  cases h with
  | nothing => cases hc
  | plain h1 hp' hr =>
    obtain ⟨st, hcv, _⟩ := convertBoxed_ok h1
    obtain ⟨h1, h2⟩ := kind_borrows htd hcv
    rw [plainReturn, if_neg (by exact fun hh => hpl hh.2)] at hr
    cases hr
    cases hc
    refine ⟨?_, ?_⟩
    · rw [Bool.eq_iff_iff]
      refine Iff.trans ?_ h1.symm
      show decide _ = true ↔ _
      rw [decide_eq_true_iff]
      exact or_comm
    · rw [Bool.eq_iff_iff]
      refine Iff.trans ?_ h2.symm
      show decide _ = true ↔ _
      rw [decide_eq_true_iff]
  | value h1 ht hq hp' hr =>
    rcases valueReturn_ok hr with ⟨q, _, _, h2, rfl⟩ | ⟨_, _, rfl⟩
    · cases hc; cases hp
    · cases hc; exact ⟨rfl, rfl⟩

theorem length_filter_map {α β : Type} (g : α → β) (p : β → Bool) (l : List α) :
    ((l.map g).filter p).length = (l.filter fun x => p (g x)).length := by
  rw [List.filter_map, List.length_map]
  rfl

/-- **C23 (partial)**: if the binding of a function returns something borrowed, exactly one of its parameters in the
bridge is borrowed; if what it returns can be changed, exactly one of them can be changed. Only where references are
plain, and no typedef stands for a reference: see `reference_typedef_false`. -/
theorem reference_return_partial {env : FnEnv} {s s' : FnState} {name n : ApiName} {f : FuncToConvert}
    {soph : Sophistication} {pre : Option String} {a : FnAnalysis} (hreal : env.Real) (hpl : env.PlainReferences)
    (htd : NoReferenceTypedef env.conv) (h : analyzeForeignFn env s name f soph pre = .done (s', a, n))
    (hx : a.ignoreReason = none) {t : Ty} (ht : a.retType = some t) (hb : borrows t = true) :
    ((a.params.map FnArg.type).filter borrows).length = 1 ∧
      (borrowsMut t = true → ((a.params.map FnArg.type).filter borrowsMut).length = 1) := by
  have hra := bridge_return_agrees h
  rw [bridge_params_agree h]
  obtain ⟨u⟩ := analyze_steps h
  have hall := u.all_borrow (real_pin hreal) hpl htd
  obtain ⟨_, _, _, _, hr, _⟩ := exposed_parts u hx
  have hall' : ∀ p ∈ a.paramDetails, p.hasLifetime = borrows p.conversion.convertedRustType ∧
      p.isMutableReference = borrowsMut p.conversion.convertedRustType := by
    intro p hp
    rw [u.details_eq] at hp
    obtain ⟨q, hq, rfl⟩ := List.mem_map.1 hp
    exact hall q hq
  rw [ht] at hra
  rw [u.retConversion_eq] at hra
  obtain ⟨c, hc, hra⟩ := Option.bind_eq_some_iff.1 hra.symm
  split at hra
  case isFalse => cases hra
  rename_i hpop
  cases hra
  have hw : u.ret.wasReference = borrows c.unconvertedRustType ∧
      u.ret.wasMutableReference = borrowsMut c.unconvertedRustType := by
    rcases u.hret with ⟨hr, _⟩ | ⟨e, _, hr, _⟩
    · exact (convertReturn_ok hr).borrow hpl htd hc hpop
    · rw [hr] at hc; cases hc
  rw [length_filter_map, length_filter_map]
  have e1 : (a.paramDetails.filter fun p => borrows p.conversion.convertedRustType) =
      a.paramDetails.filter fun p => p.hasLifetime :=
    List.filter_congr fun p hp => (hall' p hp).1.symm
  have e2 : (a.paramDetails.filter fun p => borrowsMut p.conversion.convertedRustType) =
      a.paramDetails.filter fun p => p.hasLifetime && p.isMutableReference := by
    refine List.filter_congr fun p hp => ?_
    rw [(hall' p hp).1, (hall' p hp).2, Bool.eq_iff_iff, Bool.and_eq_true]
    exact ⟨fun h => ⟨borrows_of_mut h, h⟩, fun h => h.2⟩
  rw [e1, e2]
  rw [referenceProblem] at hr
  obtain ⟨h1, h2⟩ := laterErr_none.1 hr
  rw [hw.1, hb, if_pos rfl] at h1
  refine ⟨?_, fun hm => ?_⟩
  · split at h1
    · cases h1
    · split at h1
      · cases h1
      · omega
  · rw [hw.2, hm, if_pos rfl] at h2
    split at h2
    · cases h2
    · split at h2
      · cases h2
      · omega

/-! ### C63: references wrapped -/

/-- C++ references are to be wrapped. -/
def FnEnv.WrapsReferences (env : FnEnv) : Prop :=
  env.conv.cfg.unsafePolicy = .referencesWrappedAllFunctionsSafe

theorem borrows_path {segs : List String} {args : List Ty} (h : borrows (.path segs args) = true) :
    segs = ["core", "pin", "Pin"] ∧ ∃ mu l e, args = [.ref mu l e] := by
  rcases borrows_iff.1 h with ⟨mu, l, e, ht⟩ | ⟨mu, l, e, ht⟩
  · cases ht
  · cases ht; exact ⟨rfl, _, _, _, rfl⟩

/-- Where references are wrapped, only references to something which can be changed, other than the object itself, are
still borrowed. -/
theorem argConversion_wrapped {env : FnEnv} (hw : env.WrapsReferences) {m : ArgMode} {a : Annotated Ty} {self pl : Bool}
    {conv : TypeConversionPolicy} (hf : m.force = none)
    (hpl : pl = true → ∃ mu e, a.ty = .ptr mu e) (h : argConversion env m a self pl = some conv)
    (hb : borrows conv.convertedRustType = true) : a.ty = conv.convertedRustType ∧ self = false ∧
      ∃ args, a.ty = .path ["core", "pin", "Pin"] args := by
  rw [argConversion] at h
  split at h
  · obtain ⟨x, _, rfl⟩ := Option.map_eq_some_iff.1 h
    cases hb
  · rw [hf] at h
    simp only [reduceCtorEq, false_and, if_false, Option.isSome_none, true_and, Option.getD_none] at h
    split at h
    · rename_i segs args ht
      rw [pathConversion] at h
      split at h
      · cases h
      · split at h
        · obtain ⟨x, _, rfl⟩ := Option.map_eq_some_iff.1 h
          cases hb
        · rename_i hn
          have hself : self = false := by
            cases self with
            | false => rfl
            | true => exact absurd ⟨hw, by simp, rfl⟩ hn
          have key : conv.convertedRustType = .path segs args → a.ty = conv.convertedRustType ∧ self = false ∧
              ∃ args, a.ty = .path ["core", "pin", "Pin"] args := by
            intro e
            rw [e] at hb ⊢
            obtain ⟨h1, _⟩ := borrows_path hb
            exact ⟨ht, hself, args, by rw [ht, h1]⟩
          split at h
          · split at h <;> cases h <;> exact key rfl
          · split at h
            · cases h; cases hb
            · split at h <;> cases h <;> cases hb
    · rename_i mu e ht
      split at h
      · cases h; cases hb
      · split at h
        · cases h; cases hb
        · split at h <;> cases h <;> cases hb
    · rename_i mu l e ht
      have hpl' : pl = false := by
        cases pl with
        | false => rfl
        | true => obtain ⟨_, _, h⟩ := hpl rfl; rw [ht] at h; cases h
      rw [if_pos ⟨hw, hpl'⟩] at h
      split at h
      · cases h
      · cases h; cases hb
    · rename_i h1 h2 h3
      cases h
      exfalso
      rcases borrows_iff.1 hb with ⟨mu, l, e, ht⟩ | ⟨mu, l, e, ht⟩
      · exact h3 _ _ _ ht
      · exact h1 _ _ ht

/-- A raw pointer is handed over as a raw pointer. -/
theorem argConversion_ptr {env : FnEnv} {m : ArgMode} {b : Annotated Ty} {mu : Bool} {self pl : Bool}
    {conv : TypeConversionPolicy} (h : argConversion env m { b with ty := .ptr mu b.ty, kind := .pointer } self pl = some conv) :
    borrows conv.convertedRustType = false := by
  simp only [argConversion, reduceCtorEq, if_false, false_or] at h
  split at h
  · cases h; rfl
  · split at h
    · cases h; rfl
    · split at h <;> cases h <;> rfl

/-- **C63 (partial)**: where references are wrapped, the only borrowed parameters of a function or method are references
to something which can be changed, other than the object itself. (They should be wrapped, too: see
`mutable_parameter_false`.) -/
theorem wrapped_params_partial {env : FnEnv} {s s' : FnState} {name n : ApiName} {f : FuncToConvert}
    {soph : Sophistication} {pre : Option String} {a : FnAnalysis} (hw : env.WrapsReferences)
    (h : analyzeForeignFn env s name f soph pre = .done (s', a, n)) (hk : ¬ a.kind.OfTrait) :
    ∀ p ∈ a.paramDetails, borrows p.conversion.convertedRustType = true → p.selfType = none ∧
      borrowsMut p.conversion.convertedRustType = true ∧ p.isMutableReference = true := by
  obtain ⟨t⟩ := analyze_steps h
  intro p hp hb
  rw [t.details_eq] at hp
  obtain ⟨q, hq, rfl⟩ := List.mem_map.1 hp
  obtain ⟨s1, s2, diag, m, i, hc, _, _, hinto, hforce⟩ := t.plain hk q hq
  obtain ⟨nm, ty, self, into, hprep, hn⟩ := convertFnArg_ok hc
  obtain ⟨st, b, conv, hcv, _, hv, rfl⟩ := convertNamedArg_ok hn
  change borrows conv.convertedRustType = true at hb
  rcases hforce with hf | ⟨hs, ty', rfl⟩
  · have hpl : (into || decide (m.force = some .fromPlacementParamToNewReturn)) = true → ∃ mu e, b.ty = .ptr mu e := by
      intro hi
      rw [hf] at hi
      have hi : into = true := by simpa using hi
      cases hprep with
      | thisRef ht hr => rw [hinto hi] at hr; cases hr
      | thisPtr ht hr =>
        rename_i ty0 q0
        have : ∃ mu e, ty = .ptr mu e := by
          rw [thisType.eq_def] at ht
          split at ht
          · dsimp only at ht
            split at ht
            · cases ht; exact ⟨_, _, rfl⟩
            · split at ht <;> cases ht
              exact ⟨_, _, rfl⟩
          · cases ht
        obtain ⟨mu, e, rfl⟩ := this
        obtain ⟨_, _, _, _, rfl⟩ := convert_ptr hcv
        exact ⟨_, _, rfl⟩
      | other => cases hi
    obtain ⟨h1, h2, args, h3⟩ := argConversion_wrapped hw hf hpl hv hb
    rw [← h1, h3] at hb
    obtain ⟨_, mu, l, e, rfl⟩ := borrows_path hb
    have hkind := kind_pin _ _ _ _ _ _ _ _ hcv h3
    have hd := kind_describes _ _ _ _ _ _ _ _ hcv
    rw [hkind] at hd
    obtain ⟨e', hd⟩ := hd
    refine ⟨?_, ?_, ?_⟩
    · show self = none
      simpa using h2
    · show borrowsMut conv.convertedRustType = true
      rw [← h1, hd]; rfl
    · show decide (b.kind = .mutableReference) = true
      rw [hkind]; rfl
  · exfalso
    obtain ⟨_, hn⟩ := convertFnArg_other (by decide) hc
    obtain ⟨st', b', conv', hcv', _, hv', e⟩ := convertNamedArg_ok hn
    have hconv : conv = conv' := congrArg (fun x => x.2.conversion) e
    obtain ⟨_, _, _, _, rfl⟩ := convert_ptr hcv'
    rw [hconv, argConversion_ptr hv'] at hb
    cases hb

/-- **C63**: where references are wrapped, no function returns something borrowed. (No typedef may stand for a
reference.) -/
theorem wrapped_return {env : FnEnv} {s s' : FnState} {name n : ApiName} {f : FuncToConvert}
    {soph : Sophistication} {pre : Option String} {a : FnAnalysis} (hw : env.WrapsReferences)
    (htd : NoReferenceTypedef env.conv) (h : analyzeForeignFn env s name f soph pre = .done (s', a, n))
    {t : Ty} (ht : a.retType = some t) : borrows t = false := by
  have hra := bridge_return_agrees h
  obtain ⟨u⟩ := analyze_steps h
  rw [ht, u.retConversion_eq] at hra
  obtain ⟨c, hc, hra⟩ := Option.bind_eq_some_iff.1 hra.symm
  split at hra
  case isFalse => cases hra
  rename_i hpop
  cases hra
  rcases u.hret with ⟨hr, _⟩ | ⟨e, _, hr, _⟩
  · have hr := convertReturn_ok hr
    generalize f.output = out at hr
    generalize u.ret = ret at hr hc
    generalize u.s4 = s4 at hr
    cases hr with
    | nothing => cases hc
    | plain h1 hp' hr =>
      obtain ⟨st, hcv, _⟩ := convertBoxed_ok h1
      obtain ⟨k1, _⟩ := kind_borrows htd hcv
      rw [plainReturn] at hr
      obtain ⟨c', hc', rfl⟩ := Option.map_eq_some_iff.1 hr
      cases hc
      split at hc'
      · rw [TypeConversionPolicy.returnReferenceIntoWrapper.eq_def] at hc'
        split at hc'
        · cases hc'; rfl
        · obtain ⟨x, _, rfl⟩ := Option.map_eq_some_iff.1 hc'; rfl
        · cases hc'
      · rename_i hn
        cases hc'
        rw [← Bool.not_eq_true]
        intro hb
        exact hn ⟨(k1.1 hb).symm, hw⟩
    | value h1 ht hq hp' hr =>
      rcases valueReturn_ok hr with ⟨q, _, _, h2, rfl⟩ | ⟨_, _, rfl⟩
      · cases hc; cases hpop
      · cases hc; rfl
  · rw [hr] at hc; cases hc

end Verif
