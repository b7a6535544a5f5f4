import Verif.BindTotalProps
import Verif.CppTotalProps
import Verif.CppSubProps

/-!
# Making the C++ code of a well-named function does not panic

What the analysis of a function hands to the C++ generator: the types are well named, and the conversions are such as
the generator knows how to make, in the directions in which they are asked for.
-/

set_option autoImplicit false

namespace Verif

/-- A conversion of a parameter. Only for the functions C++ calls in subclasses does it matter whether it can be turned
round. -/
structure ArgSafe (c : TypeConversionPolicy) : Prop where
  good : GoodTy c.unwrappedType
  plain : c.cppConversion ≠ .fromReferenceToPointer ∧ c.cppConversion ≠ .fromValueToUniquePtr ∧
    c.cppConversion ≠ .fromReturnValueToPlacementPtr

/-- What stands in the way of turning a conversion round is that an owner is moved. -/
def TurnsOrMoves (c : TypeConversionPolicy) : Prop := c.cppConversion = .move ∨ c.inverse ≠ none

/-- A conversion of a result. -/
structure RetSafe (c : TypeConversionPolicy) : Prop where
  good : GoodTy c.unwrappedType
  kinds : c.cppConversion = .none ∨ (c.cppConversion = .fromReferenceToPointer ∧ ∃ mu e, c.unwrappedType = .ptr mu e) ∨
    c.cppConversion = .fromValueToUniquePtr ∨ c.cppConversion = .fromReturnValueToPlacementPtr

/-- What the generator of C++ is told about a function. -/
structure CppFit (args : List TypeConversionPolicy) (ret : Option TypeConversionPolicy) : Prop where
  args : ∀ c ∈ args, ArgSafe c
  ret : ∀ c, ret = some c → RetSafe c

/-! ### What the analysis says -/

theorem ptr_good {mu : Bool} {e : Ty} (h : GoodTy (.ptr mu e)) : GoodTy e := by cases h; assumption

theorem ref_good {mu : Bool} {lt : Option String} {e : Ty} (h : GoodTy (.ref mu lt e)) : GoodTy e := by
  cases h; assumption

theorem arg_good {segs : List String} {args : List Ty} (h : GoodTy (.path segs args)) : ∀ a ∈ args, GoodTy a := by
  cases h; assumption

/-- `rust::Box` of the Rust side of a subclass. -/
theorem box_good {id : Ident} (h : GoodTy (.path [id] [])) : GoodTy (.path ["rust", "Box"] [.path [id] []]) := by
  refine .path (q := ⟨["rust"], "Box"⟩) (by decide) ?_ (fun hp => absurd (isPin_name hp) (by decide)) ?_
  · intro x hx
    simp only [QName.segs, List.cons_append, List.nil_append, List.mem_cons, List.not_mem_nil, or_false] at hx
    rcases hx with rfl | rfl <;> exact ⟨by decide, by decide⟩
  · intro a ha
    rw [List.mem_singleton.1 ha]
    exact h

theorem holder_name {id : Ident} (hs : subclassFromHolder id ≠ none) {segs : List String} {args : List Ty}
    (hg : GoodTy (.path segs args)) (hq : QName.ofTypePath segs = some ⟨[], id⟩) : GoodTy (.path [id] []) := by
  cases hg with
  | path hq' hg hp ha =>
    rw [hq] at hq'
    cases hq'
    have hne : ∀ x : String, subclassFromHolder x = none → id ≠ x := fun x hx e => hs (e ▸ hx)
    refine .path (q := ⟨[], id⟩) ?_ hg ?_ (fun a ha => by cases ha)
    · simp [QName.ofTypePath, QName.fromSegs, hne "root" (by decide), hne "output" (by decide)]
    · intro hp
      exact absurd (isPin_name hp) (hne "Pin" (by decide))

theorem argConversion_safe {env : FnEnv} {m : ArgMode} {a : Annotated Ty} {self pl : Bool} {c : TypeConversionPolicy}
    (h : argConversion env m a self pl = some c) (hg : GoodTy a.ty) (hd : Describes a.kind a.ty) :
    ArgSafe c ∧ (m.soph = .simpleForSubclasses → m.isMove = false → TurnsOrMoves c) := by
  have turn : ∀ {t : Ty} {x y : CppConversionType} {r : RustConversionType}, x.inverse = some y →
      TurnsOrMoves ⟨t, x, r⟩ := by
    intro t x y r h
    refine .inr ?_
    rw [TypeConversionPolicy.inverse, h]
    exact fun h => by cases h
  rw [argConversion.eq_def] at h
  dsimp only at h
  split at h
  · rename_i id hk
    obtain ⟨e, hsub, rfl⟩ := Option.map_eq_some_iff.1 h
    rw [hk] at hd
    obtain ⟨segs, s, args, r, hty, hq⟩ := hd
    rw [hty] at hg
    have := holder_name (by rw [hsub]; exact fun h => by cases h) (arg_good hg _ List.mem_cons_self) hq
    exact ⟨⟨box_good this, by refine ⟨?_, ?_, ?_⟩ <;> (intro h; cases h)⟩, fun _ _ => .inl rfl⟩
  · split at h
    · rename_i hpl
      cases h
      exact ⟨⟨hg, by refine ⟨?_, ?_, ?_⟩ <;> (intro h; cases h)⟩, fun hs => by rw [hs] at hpl; cases hpl.2⟩
    · split at h
      · rename_i segs args hty
        rw [hty] at hg
        rw [pathConversion.eq_def] at h
        split at h
        · cases h
        · split at h
          · obtain ⟨e, he, rfl⟩ := Option.map_eq_some_iff.1 h
            rw [pinContents.eq_def] at he
            split at he
            · cases he
              exact ⟨⟨.ptr (ref_good (arg_good hg _ List.mem_cons_self)), by refine ⟨?_, ?_, ?_⟩ <;> (intro h; cases h)⟩, fun _ _ => turn rfl⟩
            · cases he
          · split at h
            · split at h
              · cases h; exact ⟨⟨hg, by refine ⟨?_, ?_, ?_⟩ <;> (intro h; cases h)⟩, fun _ _ => .inl rfl⟩
              · cases h; exact ⟨⟨hg, by refine ⟨?_, ?_, ?_⟩ <;> (intro h; cases h)⟩, fun _ _ => turn rfl⟩
            · split at h
              · cases h; exact ⟨⟨hg, by refine ⟨?_, ?_, ?_⟩ <;> (intro h; cases h)⟩, fun _ _ => turn rfl⟩
              · split at h <;> cases h <;> exact ⟨⟨hg, by refine ⟨?_, ?_, ?_⟩ <;> (intro h; cases h)⟩, fun _ _ => turn rfl⟩
      · rename_i mu e hty
        rw [hty] at hg
        split at h
        · rename_i hm
          cases h; exact ⟨⟨hg, by refine ⟨?_, ?_, ?_⟩ <;> (intro h; cases h)⟩, fun _ hm' => by rw [hm'] at hm; cases hm⟩
        · split at h
          · cases h; exact ⟨⟨ptr_good hg, by refine ⟨?_, ?_, ?_⟩ <;> (intro h; cases h)⟩, fun _ _ => turn rfl⟩
          · split at h <;> cases h <;> exact ⟨⟨hg, by refine ⟨?_, ?_, ?_⟩ <;> (intro h; cases h)⟩, fun _ _ => turn rfl⟩
      · rename_i mu l e hty
        rw [hty] at hg
        split at h
        · split at h
          · cases h
          · cases h
            exact ⟨⟨.ptr (ref_good hg), by refine ⟨?_, ?_, ?_⟩ <;> (intro h; cases h)⟩, fun _ _ => turn rfl⟩
        · cases h
          exact ⟨⟨hg, by refine ⟨?_, ?_, ?_⟩ <;> (intro h; cases h)⟩, fun _ _ => turn rfl⟩
      · cases h
        exact ⟨⟨hg, by refine ⟨?_, ?_, ?_⟩ <;> (intro h; cases h)⟩, fun _ _ => turn rfl⟩

/-- A parameter the generator of C++ can handle. -/
def ParamSafe (turns : Prop) (p : FnArg × ArgumentAnalysis) : Prop :=
  ArgSafe p.2.conversion ∧ (turns → TurnsOrMoves p.2.conversion)

theorem fnArg_cpp {env : FnEnv} (he : GoodFnEnv env) (ht : FitTypedefs env) {ns : List String}
    (hns : ∀ x ∈ ns, GoodName x) {s s' : FnState} (hs : GoodState s) {diag : QName} {m : ArgMode}
    (hv : ∀ q, m.virtualThis = some q → GoodQ q ∧ ¬ IsPin q) {i : FnArg} (hi : FitInput i)
    {p : FnArg × ArgumentAnalysis} (h : convertFnArg env s ns diag m i = .done (s', .ok p)) :
    ParamSafe (m.soph = .simpleForSubclasses ∧ m.isMove = false) p := by
  obtain ⟨name, ty, self, into, hprep, hn⟩ := convertFnArg_ok h
  obtain ⟨st, a, conv, hc, -, hcv, rfl⟩ := convertNamedArg_ok hn
  have hty : GoodTy ty := by
    cases hi with
    | typed h2 h3 =>
      cases hprep with
      | thisRef hth hr => exact marker_good ((thisType_safe hv h2 (h3 rfl)).2 _ hth _ rfl).1
      | thisPtr hth hr => exact ((thisType_safe hv h2 (h3 rfl)).2 _ hth _ rfl).1
      | other hn hv => exact h2
  obtain ⟨h1, -⟩ := boxed_fit he ht hns hs hty hc
  obtain ⟨g1, g2⟩ := argConversion_safe hcv h1 (kind_describes _ _ _ _ _ _ _ _ hc)
  exact ⟨g1, fun h => g2 h.1 h.2⟩

theorem fates_cpp {env : FnEnv} {ns : List String} {diag : QName} {m : ArgMode} {s s' : FnState} {l : List FnArg}
    {ps : List (FnArg × ArgumentAnalysis)} {es : List Err} (t : ParamFates env ns diag m s l s' ps es) (he : GoodFnEnv env)
    (ht : FitTypedefs env) (hns : ∀ x ∈ ns, GoodName x) (hv : ∀ q, m.virtualThis = some q → GoodQ q ∧ ¬ IsPin q)
    (hs : GoodState s) (hl : ∀ i ∈ l, GoodInput i) :
    ∀ p ∈ ps, ParamSafe (m.soph = .simpleForSubclasses ∧ m.isMove = false) p := by
  induction t with
  | nil => intro p hp; cases hp
  | good h t ih =>
    have hi := hl _ (List.mem_cons_self ..)
    have h1 := (fnArg_safe he hns hs hv hi).2 _ h
    intro p hp
    rcases List.mem_cons.1 hp with rfl | hp
    · exact fnArg_cpp he ht hns hs hv hi.fit h
    · exact ih h1.1 (fun x hx => hl x (List.mem_cons_of_mem _ hx)) p hp
  | bad h t ih =>
    have h1 := (fnArg_safe he hns hs hv (hl _ (List.mem_cons_self ..))).2 _ h
    exact ih h1.1 (fun x hx => hl x (List.mem_cons_of_mem _ hx))

theorem reanalyze_cpp {turns : Prop} {env : FnEnv} {s s' : FnState} {ns : List String} {diag : QName} {inputs : List FnArg}
    {m : ArgMode} {idx : Nat} {ps ps' : List (FnArg × ArgumentAnalysis)} {e : Option Err}
    (h : reanalyze env s ns diag inputs m idx ps = .done (s', ps', e)) (ha : ∀ p ∈ ps, ParamSafe turns p)
    (hm : turns → m.soph = .simpleForSubclasses ∧ m.isMove = false)
    (he : GoodFnEnv env) (ht : FitTypedefs env) (hns : ∀ x ∈ ns, GoodName x)
    (hv : ∀ q, m.virtualThis = some q → GoodQ q ∧ ¬ IsPin q) (hs : GoodState s) (hl : ∀ i ∈ inputs, GoodInput i) :
    (∀ p ∈ ps', ParamSafe turns p) ∧ Onward s s' := by
  obtain ⟨i, hi, ⟨p, hp, hlt, rfl, _⟩ | ⟨x, hx, rfl, _⟩⟩ := reanalyze_done h
  · have hi' := hl i (List.mem_of_getElem? hi)
    refine ⟨fun q hq => ?_, (fnArg_safe he hns hs hv hi').2 _ hp⟩
    rcases List.mem_or_eq_of_mem_set hq with hq | rfl
    · exact ha q hq
    · obtain ⟨g1, g2⟩ := fnArg_cpp he ht hns hs hv hi'.fit hp
      exact ⟨g1, fun h => g2 (hm h)⟩
  · exact ⟨ha, (fnArg_safe he hns hs hv (hl i (List.mem_of_getElem? hi))).2 _ hx⟩

theorem reanalyzeParams_cpp {turns : Prop} {env : FnEnv} {s s' : FnState} {ns : List String} {diag : QName}
    {f : FuncToConvert} {soph : Sophistication} {kind : FnKind} {ps ps' : List (FnArg × ArgumentAnalysis)} {e : Option Err}
    (h : reanalyzeParams env s ns diag f soph kind ps = .done (s', ps', e)) (ha : ∀ p ∈ ps, ParamSafe turns p)
    (hm : turns → soph = .simpleForSubclasses ∧ ∀ q d, kind ≠ .traitMethod .moveConstructor q d)
    (he : GoodFnEnv env) (ht : FitTypedefs env) (hns : ∀ x ∈ ns, GoodName x)
    (hv : ∀ q, f.synthesizedThisType = some q → GoodQ q ∧ ¬ IsPin q) (hs : GoodState s) (hl : ∀ i ∈ f.inputs, GoodInput i) :
    (∀ p ∈ ps', ParamSafe turns p) ∧ Onward s s' := by
  rw [reanalyzeParams.eq_def] at h
  dsimp only at h
  split at h
  · exact reanalyze_cpp h ha (fun h => ⟨(hm h).1, rfl⟩) he ht hns hv hs hl
  · exact reanalyze_cpp h ha (fun h => ⟨(hm h).1, rfl⟩) he ht hns hv hs hl
  · obtain ⟨⟨s1, ps1, e1⟩, g1, h⟩ := PassRun.bind_done.1 h
    cases h
    exact reanalyze_cpp g1 ha (fun h => ⟨(hm h).1, rfl⟩) he ht hns hv hs hl
  · obtain ⟨⟨s1, ps1, e1⟩, g1, h⟩ := PassRun.bind_done.1 h
    obtain ⟨⟨s2, ps2, e2⟩, g2, h⟩ := PassRun.bind_done.1 h
    cases h
    obtain ⟨r1, r3⟩ := reanalyze_cpp g1 ha (fun h => ⟨(hm h).1, rfl⟩) he ht hns hv hs hl
    obtain ⟨r4, r6⟩ := reanalyze_cpp g2 r1 (fun h => absurd rfl ((hm h).2 _ _)) he ht hns hv r3.1 hl
    exact ⟨r4, r3.trans r6⟩
  · cases h
    exact ⟨ha, hs, .refl⟩

/-- What is said of the result. -/
structure ReturnCpp (soph : Sophistication) (r : ReturnAnalysis) : Prop where
  ret : ∀ c, r.conversion = some c → RetSafe c ∧
    (soph = .simpleForSubclasses → c.cppConversion ≠ .fromReturnValueToPlacementPtr)
  place : ∀ p ∈ r.placement.toList, ArgSafe p.2.conversion ∧ soph = .regular

theorem return_cpp {env : FnEnv} (he : GoodFnEnv env) (ht : FitTypedefs env) {ns : List String}
    (hns : ∀ x ∈ ns, GoodName x) {s s' : FnState} (hs : GoodState s) {diag : QName} {soph : Sophistication}
    {ty : Option Ty} (hty : ∀ t, ty = some t → GoodTy t) {r : ReturnAnalysis}
    (h : convertReturn env s ns diag soph ty = .done (s', .ok r)) : ReturnCpp soph r := by
  cases convertReturn_ok h with
  | nothing => exact ⟨fun t h => (by cases h), fun p hp => by cases hp⟩
  | plain h1 hp hr =>
    obtain ⟨c, hc, rfl⟩ := Option.map_eq_some_iff.1 hr
    obtain ⟨st, hb, -⟩ := convertBoxed_ok h1
    obtain ⟨g1, -⟩ := boxed_fit he ht hns hs (hty _ rfl) hb
    refine ⟨fun c' h => ?_, fun p hp => by cases hp⟩
    cases h
    split at hc
    · rw [TypeConversionPolicy.returnReferenceIntoWrapper.eq_def] at hc
      split at hc
      · rename_i m l e hae
        cases hc
        rw [hae] at g1
        exact ⟨⟨.ptr (ref_good g1), .inr (.inl ⟨rfl, _, _, rfl⟩)⟩, fun _ h => by cases h⟩
      · rename_i segs args hae
        obtain ⟨e, hpin, rfl⟩ := Option.map_eq_some_iff.1 hc
        rw [hae, pinnedMutRef.eq_def] at hpin
        rw [hae] at g1
        split at hpin
        · rename_i heq
          split at hpin
          · cases hpin
            cases heq
            exact ⟨⟨.ptr (ref_good (arg_good g1 _ (List.mem_singleton.2 rfl))), .inr (.inl ⟨rfl, _, _, rfl⟩)⟩,
              fun _ h => by cases h⟩
          · cases hpin
        · cases hpin
      · cases hc
    · cases hc
      exact ⟨⟨g1, .inl rfl⟩, fun _ h => by cases h⟩
  | @value ty0 s1 _ a _ segs args q h1 hta hq hp hr =>
    obtain ⟨st, hb, -⟩ := convertBoxed_ok h1
    obtain ⟨g1, g2⟩ := boxed_fit he ht hns hs (hty _ rfl) hb
    rcases valueReturn_ok hr with ⟨p, -, hreg, h2, rfl⟩ | ⟨-, -, rfl⟩
    · refine ⟨fun c h => ?_, fun p' hp' => ?_⟩
      · cases h
        exact ⟨⟨g1, .inr (.inr (.inr rfl))⟩, fun h => by rw [hreg] at h; cases h⟩
      · cases List.mem_singleton.1 hp'
        have hs1 := ((boxed_state he hns hs (hty _ rfl)).2 _ h1).1
        exact ⟨(fnArg_cpp he ht hns hs1 (fun q h => by cases h) (.typed (.ptr g1) (fun h => absurd h (by decide))) h2).1, hreg⟩
    · refine ⟨fun c h => ?_, fun p hp => by cases hp⟩
      cases h
      exact ⟨⟨g1, .inr (.inr (.inl rfl))⟩, fun _ h => by cases h⟩

/-- What the generator of C++ is told about a function which was analysed. For what is made for subclasses, only owners
stand in the way of turning the conversions round. -/
theorem FnSteps.cpp {env : FnEnv} {s s' : FnState} {name n : ApiName} {f : FuncToConvert} {soph : Sophistication}
    {pre : Option String} {a : FnAnalysis} (t : FnSteps env s name f soph pre s' a n)
    (he : GoodFnEnv env) (htd : FitTypedefs env) (hf : GoodFn env.nested name f)
    (hpre : ∀ p, pre = some p → isIdentText p = true) (hs : GoodState s) :
    CppFit (a.paramDetails.map (·.conversion)) a.retConversion ∧
      (soph = .simpleForSubclasses → f.specialMember ≠ some .moveConstructor →
        (∀ p ∈ a.paramDetails, TurnsOrMoves p.conversion) ∧ ∀ c, a.retConversion = some c → c.inverse ≠ none) := by
  have h1 := fates_steps t.hparams he hf.ns hf.synth hs hf.inputs
  obtain ⟨hsame, -, hmove, -⟩ := t.kind_facts hf hpre
  have h2 := (hsame.onward h1.1).1
  have h0 := fates_cpp t.hparams he htd hf.ns hf.synth hs hf.inputs
  obtain ⟨hp, h3⟩ := reanalyzeParams_cpp (turns := soph = .simpleForSubclasses ∧ f.specialMember ≠ some .moveConstructor)
    t.hre (fun p hp => ⟨(h0 p hp).1, fun h => (h0 p hp).2 ⟨h.1, rfl⟩⟩)
    (fun h => ⟨h.1, fun q d hk => h.2 (hmove ⟨q, d, by rw [t.kind_eq]; exact hk⟩)⟩) he htd hf.ns hf.synth h2 hf.inputs
  have h4 : GoodState t.s4 := by
    rw [t.hs4]
    exact ⟨h3.1.concretes, h3.1.inv, h3.1.extra⟩
  have hret : ReturnCpp soph t.ret := by
    rcases t.hret with ⟨hr, -⟩ | ⟨e, -, hr, -⟩
    · exact return_cpp he htd hf.ns h4 hf.output hr
    · rw [hr]
      exact ⟨fun c h => (by cases h), fun p hp => by cases hp⟩
  rw [t.details_eq, t.retConversion_eq]
  refine ⟨⟨fun c hc => ?_, fun c hc => (hret.ret c hc).1⟩, fun hso hmv => ⟨fun p hp' => ?_, fun c hc => ?_⟩⟩
  · rw [List.map_map] at hc
    obtain ⟨p, hp', rfl⟩ := List.mem_map.1 hc
    rcases List.mem_append.1 hp' with hp' | hp'
    · exact (hp p hp').1
    · exact (hret.place p hp').1
  · obtain ⟨q, hq, rfl⟩ := List.mem_map.1 hp'
    rcases List.mem_append.1 hq with hq | hq
    · exact (hp q hq).2 ⟨hso, hmv⟩
    · have := (hret.place q hq).2
      rw [hso] at this
      cases this
  · obtain ⟨g1, g2⟩ := hret.ret c hc
    rw [TypeConversionPolicy.inverse]
    rcases g1.kinds with h | ⟨h, -⟩ | h | h
    · rw [h]; exact fun h => by cases h
    · rw [h]; exact fun h => by cases h
    · rw [h]; exact fun h => by cases h
    · exact absurd h (g2 hso)

/-! ### The generator -/

theorem np_bind {α β : Type} {o : Outcome α} {f : α → Outcome β} (h : o ≠ .panic) (hf : ∀ a, o = .ok a → f a ≠ .panic) :
    o.bind f ≠ .panic := by
  cases o with
  | ok a => exact hf a rfl
  | err e => exact fun h => by cases h
  | panic => exact absurd rfl h

theorem np_map {α β : Type} {f : α → Outcome β} : ∀ {l : List α}, (∀ a ∈ l, f a ≠ .panic) → mapOutcome f l ≠ .panic
  | [], _ => fun h => by cases h
  | a :: l, h => by
    rw [mapOutcome]
    exact np_bind (h a List.mem_cons_self) fun b _ =>
      np_bind (np_map fun x hx => h x (List.mem_cons_of_mem _ hx)) fun bs _ h => by cases h

theorem np_fold {α β : Type} {P : β → Prop} {f : β → α → Outcome β} : ∀ (l : List α) {b : β}, P b →
    (∀ b, P b → ∀ a ∈ l, f b a ≠ .panic ∧ ∀ b', f b a = .ok b' → P b') →
    foldOutcome f b l ≠ .panic ∧ ∀ b', foldOutcome f b l = .ok b' → P b'
  | [], b, hb, _ => ⟨(fun h => by cases h), (fun b' h => by cases h; exact hb)⟩
  | a :: l, b, hb, h => by
    rw [foldOutcome]
    obtain ⟨h1, h2⟩ := h b hb a List.mem_cons_self
    cases hf : f b a with
    | panic => exact absurd hf h1
    | err e => exact ⟨(fun h => by cases h), (fun b' h => by cases h)⟩
    | ok b1 => exact np_fold l (h2 b1 hf) fun b hb x hx => h b hb x (List.mem_cons_of_mem _ hx)

section
variable {m : CppNameMap} (hm : GoodMap m) {c : TypeConversionPolicy} (hg : GoodTy c.unwrappedType)
include hm hg

theorem unconverted_np : c.unconvertedType m ≠ .panic := by
  have h := (typeToCpp_good hm hg).1
  unfold TypeConversionPolicy.unconvertedType TypeConversionPolicy.uniquePtrWrapped
  split
  · exact np_bind h fun _ _ h => by cases h
  · exact np_bind h fun _ _ h => by cases h
  · exact h

theorem converted_np (hr : c.cppConversion = .fromReferenceToPointer → ∃ mu e, c.unwrappedType = .ptr mu e) :
    c.convertedType m ≠ .panic := by
  have h := (typeToCpp_good hm hg).1
  unfold TypeConversionPolicy.convertedType TypeConversionPolicy.uniquePtrWrapped
  split
  · exact np_bind h fun _ _ h => by cases h
  · rename_i hc
    obtain ⟨mu, e, ht⟩ := hr hc
    rw [ht] at hg ⊢
    exact np_bind (typeToCpp_good hm (ptr_good hg)).1 fun _ _ h => by cases h
  · exact h

theorem convert_np {v : String} {b : Bool} : c.cppConvert m v b ≠ .panic ∧
    (c.cppConversion ≠ .ignoredPlacementPtrParameter → c.cppConvert m v b ≠ .ok none) := by
  have h := unconverted_np hm hg
  unfold TypeConversionPolicy.cppConvert
  split
  case h_7 =>
    refine ⟨np_bind h (fun _ _ h => by cases h), fun _ he => ?_⟩
    cases hu : c.unconvertedType m with
    | ok a => rw [hu] at he; cases he
    | err e => rw [hu] at he; cases he
    | panic => exact h hu
  case h_9 hc => exact ⟨(fun h => by cases h), (fun h => absurd hc h)⟩
  all_goals exact ⟨(fun h => by cases h), (fun _ h => by cases h)⟩

end

theorem inverted_np {α : Type} {c : TypeConversionPolicy} {f : TypeConversionPolicy → Outcome α} (hi : c.inverse ≠ none)
    (hf : ∀ x, c.cppConversion.inverse = some x → f { c with cppConversion := x } ≠ .panic) : c.inverted f ≠ .panic := by
  unfold TypeConversionPolicy.inverted
  cases h : c.inverse with
  | none => exact absurd h hi
  | some q =>
    rw [TypeConversionPolicy.inverse] at h
    obtain ⟨x, hx, rfl⟩ := Option.map_eq_some_iff.1 h
    exact hf x hx

theorem inverse_ref {x : CppConversionType} (h : x.inverse = some .fromReferenceToPointer) : x = .fromPointerToReference := by
  cases x <;> cases h; rfl

theorem inverse_place {x : CppConversionType} : x.inverse ≠ some .ignoredPlacementPtrParameter := by
  cases x <;> exact fun h => by cases h

/-- Only objects are built in a place, and what is built has a place. -/
def BuildsInPlace (d : CppFunction) : Prop :=
  ∀ ns id, d.payload = .placementNew ns id → d.isAMethod false = true ∧
    ∃ p ∈ d.argumentConversion, p.isPlacementParameter = false

theorem payload_np {m : CppNameMap} {r : Option String} {args : String} {b : CppFunctionBody}
    (h : ∀ ns id, b = .placementNew ns id → r ≠ none) : payloadCall m r args b ≠ .panic := by
  cases b with
  | placementNew ns id =>
    cases r with
    | none => exact absurd rfl (h ns id rfl)
    | some x => exact fun h => by cases h
  | functionCall ns id => cases r <;> exact fun h => by cases h
  | _ => exact fun h => by cases h

/-- The function Rust calls. -/
theorem wrapper_np {m : CppNameMap} (hm : GoodMap m) {d : CppFunction} (hfit : CppFit d.argumentConversion d.returnConversion)
    (hb : BuildsInPlace d) {rd : Bool} {fn : Option String} :
    generateCppFunctionInner m d false .rustCallsCpp rd fn ≠ .panic := by
  rw [generateCppFunctionInner]
  refine np_bind (np_map fun p hp => np_bind (unconverted_np hm (hfit.args _ (mem_zipIdx_fst hp)).good) fun _ _ h => by cases h)
    fun _ _ => np_bind ?_ fun _ _ => np_bind (np_map fun p hp => (convert_np hm (hfit.args _ (mem_zipIdx_fst hp)).good).1)
    fun values hv => np_bind (payload_np fun ns cls hp => ?_) fun c _ => np_bind ?_ fun _ _ h => by cases h
  · unfold cppRetType
    dsimp only
    split
    · exact fun h => by cases h
    · rename_i c hc
      obtain ⟨g1, g2⟩ := hfit.ret c hc
      split
      · refine converted_np hm g1 fun h => ?_
        rcases g2 with g | ⟨-, g⟩ | g | g
        · rw [h] at g; cases g
        · exact g
        · rw [h] at g; cases g
        · rw [h] at g; cases g
      · exact fun h => by cases h
  · obtain ⟨hme, p, hp, hnp⟩ := hb ns cls hp
    rw [if_pos hme]
    obtain ⟨i, hi⟩ : ∃ i, (p, i) ∈ d.argumentConversion.zipIdx := by
      obtain ⟨i, hi, rfl⟩ := List.getElem_of_mem hp
      exact ⟨i, List.mem_zipIdx_iff_getElem?.2 (by simp [hi])⟩
    obtain ⟨v, hv, hcv⟩ := (mapOutcome_ok.1 hv).left hi
    cases v with
    | none =>
      refine absurd hcv ((convert_np hm (hfit.args _ hp).good).2 fun h => ?_)
      simp [TypeConversionPolicy.isPlacementParameter, h] at hnp
    | some x =>
      intro hh
      rw [List.head?_eq_none_iff] at hh
      have : x ∈ values.filterMap id := List.mem_filterMap.2 ⟨_, hv, rfl⟩
      rw [hh] at this
      cases this
  · unfold cppResult
    split
    · exact fun h => by cases h
    · rename_i p hp
      obtain ⟨g1, g2⟩ := hfit.ret p hp
      obtain ⟨c1, c2⟩ := convert_np hm g1 (v := c.1) (b := true)
      rw [cppReturn]
      refine np_bind c1 fun r hr => ?_
      cases r with
      | none =>
        refine absurd hr (c2 fun h => ?_)
        rcases g2 with g | ⟨g, -⟩ | g | g <;> rw [h] at g <;> cases g
      | some e =>
        dsimp only
        split
        · exact np_bind (typeToCpp_good hm g1).1 fun _ _ h => by cases h
        · exact fun h => by cases h

/-- A function of C++ which C++ calls. -/
theorem cppCallsCpp_np {m : CppNameMap} (hm : GoodMap m) {d : CppFunction} (ha : ∀ c ∈ d.argumentConversion, ArgSafe c)
    (hr : ∀ c, d.returnConversion = some c → RetSafe c) (hb : ∀ ns id, d.payload ≠ .placementNew ns id) {avoid rd : Bool}
    {fn : Option String} : generateCppFunctionInner m d avoid .cppCallsCpp rd fn ≠ .panic := by
  rw [generateCppFunctionInner]
  refine np_bind (np_map fun p hp => np_bind (converted_np hm (ha _ (mem_zipIdx_fst hp)).good
      fun h => absurd h (ha _ (mem_zipIdx_fst hp)).plain.1) fun _ _ h => by cases h)
    fun _ _ => np_bind ?_ fun _ _ => np_bind (np_map fun p hp h => by cases h)
    fun values hv => np_bind (payload_np fun ns id hp => absurd hp (hb ns id)) fun c _ => np_bind ?_ fun _ _ h => by cases h
  · unfold cppRetType
    dsimp only
    split
    · exact fun h => by cases h
    · rename_i c hc
      exact unconverted_np hm (hr c hc).good
  · unfold cppResult
    split
    · exact fun h => by cases h
    · rename_i p hp
      rw [cppReturn]
      refine np_bind (fun h => by cases h) fun r hr' => ?_
      cases hr'
      dsimp only
      split
      · exact np_bind (typeToCpp_good hm (hr p hp).good).1 fun _ _ h => by cases h
      · exact fun h => by cases h

/-- A function of Rust which C++ calls. -/
theorem cppCallsRust_np {m : CppNameMap} (hm : GoodMap m) {d : CppFunction} (ha : ∀ c ∈ d.argumentConversion, ArgSafe c)
    (hr : ∀ c, d.returnConversion = some c → RetSafe c) (hai : ∀ c ∈ d.argumentConversion, c.inverse ≠ none)
    (hri : ∀ c, d.returnConversion = some c → c.inverse ≠ none) (hb : ∀ ns id, d.payload ≠ .placementNew ns id)
    {avoid rd : Bool} {fn : Option String} : generateCppFunctionInner m d avoid .cppCallsRust rd fn ≠ .panic := by
  rw [generateCppFunctionInner]
  refine np_bind (np_map fun p hp => np_bind (inverted_np (hai _ (mem_zipIdx_fst hp)) fun x hx =>
      unconverted_np hm (ha _ (mem_zipIdx_fst hp)).good) fun _ _ h => by cases h)
    fun _ _ => np_bind ?_ fun _ _ => np_bind (np_map fun p hp => inverted_np (hai _ (mem_zipIdx_fst hp)) fun x hx =>
      (convert_np hm (c := { p.1 with cppConversion := x }) (ha _ (mem_zipIdx_fst hp)).good).1)
    fun values hv => np_bind (payload_np fun ns id hp => absurd hp (hb ns id)) fun c _ => np_bind ?_ fun _ _ h => by cases h
  · unfold cppRetType
    dsimp only
    split
    · exact fun h => by cases h
    · rename_i c hc
      refine inverted_np (hri c hc) fun x hx => converted_np hm (hr c hc).good fun h => ?_
      have h : x = .fromReferenceToPointer := h
      rw [h] at hx
      have := inverse_ref hx
      rcases (hr c hc).kinds with g | ⟨g, -⟩ | g | g <;> rw [this] at g <;> cases g
  · unfold cppResult
    split
    · exact fun h => by cases h
    · rename_i p hp
      rw [cppReturn]
      refine np_bind (inverted_np (hri p hp) fun x hx =>
        (convert_np hm (c := { p with cppConversion := x }) (hr p hp).good).1) fun r hr' => ?_
      cases r with
      | none =>
        refine absurd hr' ?_
        unfold TypeConversionPolicy.inverted
        split
        · rename_i q hq
          rw [TypeConversionPolicy.inverse] at hq
          obtain ⟨x, hx, rfl⟩ := Option.map_eq_some_iff.1 hq
          exact (convert_np hm (c := { p with cppConversion := x }) (hr p hp).good).2
            fun h => inverse_place (hx.trans (congrArg some h))
        · exact fun h => by cases h
      | some e =>
        dsimp only
        split
        · exact np_bind (typeToCpp_good hm (hr p hp).good).1 fun _ _ h => by cases h
        · exact fun h => by cases h

end Verif
