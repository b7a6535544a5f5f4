import Verif.RsCallProps
import Verif.FnMoreProps

/-!
# The Rust functions made for what was analysed

How each parameter of a function which is offered was converted, and what follows for the Rust code made for it.
-/

set_option autoImplicit false

namespace Verif

/-! ## How each parameter was converted -/

/-- The way the parameter at an index is converted in the end, by the kind of function. -/
def paramMode (f : FuncToConvert) (soph : Sophistication) (kind : FnKind) (idx : Nat) : ArgMode :=
  let again : ArgMode := { virtualThis := f.synthesizedThisType, thisAsReference := false, soph := soph }
  match kind, idx with
  | .method (.constructor _) _, 0 => { again with intoSelf := true }
  | .traitMethod .destructor _ _, 0 => { again with force := some .fromTypeToPtr }
  | .traitMethod .copyConstructor _ _, 0 => { again with force := some .fromPinMaybeUninitToPtr }
  | .traitMethod .moveConstructor _ _, 0 => { again with force := some .fromPinMaybeUninitToPtr }
  | .traitMethod .moveConstructor _ _, 1 => { again with force := some .fromPinMoveRefToPtr, isMove := true }
  | _, _ => { virtualThis := f.synthesizedThisType, soph := soph }

/-- The parameters from the first to the last, each converted in the mode for it. -/
def InModes (env : FnEnv) (ns : List String) (diag : QName) (mode : Nat → ArgMode) (inputs : List FnArg)
    (ps : List (FnArg × ArgumentAnalysis)) : Prop :=
  ps.length = inputs.length ∧ ∀ idx p, ps[idx]? = some p →
    ∃ i s1 s2, inputs[idx]? = some i ∧ convertFnArg env s1 ns diag (mode idx) i = .done (s2, .ok p)

theorem ParamFates.modes {env : FnEnv} {ns : List String} {diag : QName} {m : ArgMode} {s s' : FnState}
    {l : List FnArg} {ps : List (FnArg × ArgumentAnalysis)} {es : List Err}
    (h : ParamFates env ns diag m s l s' ps es) (he : es = []) : InModes env ns diag (fun _ => m) l ps := by
  induction h with
  | nil => exact ⟨rfl, fun idx p hp => by simp at hp⟩
  | good h _ ih =>
    obtain ⟨h1, h2⟩ := ih he
    refine ⟨by simp [h1], fun idx p hp => ?_⟩
    cases idx with
    | zero => cases hp; exact ⟨_, _, _, rfl, h⟩
    | succ idx => exact h2 idx p hp
  | bad h _ ih => cases he

theorem reanalyze_modes {env : FnEnv} {s s' : FnState} {ns : List String} {diag : QName} {inputs : List FnArg}
    {m : ArgMode} {idx : Nat} {ps ps' : List (FnArg × ArgumentAnalysis)} {mode : Nat → ArgMode}
    (h : reanalyze env s ns diag inputs m idx ps = .done (s', ps', none)) (ha : InModes env ns diag mode inputs ps) :
    InModes env ns diag (fun k => if k = idx then m else mode k) inputs ps' := by
  obtain ⟨i, hi, ⟨p, hp, hl, rfl, _⟩ | ⟨x, _, _, hx⟩⟩ := reanalyze_done h
  · refine ⟨by simp [ha.1], fun k q hq => ?_⟩
    rw [List.getElem?_set] at hq
    by_cases hk : idx = k
    · subst hk
      rw [if_pos rfl, if_pos hl] at hq
      cases hq
      dsimp only
      rw [if_pos rfl]
      exact ⟨i, _, _, hi, hp⟩
    · rw [if_neg hk] at hq
      dsimp only
      rw [if_neg (fun h => hk h.symm)]
      exact ha.2 k q hq
  · cases hx

theorem InModes.congr {env : FnEnv} {ns : List String} {diag : QName} {mode mode' : Nat → ArgMode} {inputs : List FnArg}
    {ps : List (FnArg × ArgumentAnalysis)} (h : InModes env ns diag mode inputs ps) (he : ∀ k, mode k = mode' k) :
    InModes env ns diag mode' inputs ps := (funext he) ▸ h

/-- Every parameter of a function without problems was converted in the mode for its place and the kind of function. -/
theorem FnSteps.modes {env : FnEnv} {s s' : FnState} {name n : ApiName} {f : FuncToConvert} {soph : Sophistication}
    {pre : Option String} {a : FnAnalysis} (t : FnSteps env s name f soph pre s' a n) (he : t.e = none)
    (hb : t.bads = []) :
    InModes env name.name.ns ⟨name.name.ns, t.diag⟩ (paramMode f soph a.kind) f.inputs t.ps' ∧
      ((∃ q d, a.kind = .traitMethod .copyConstructor q d ∨ a.kind = .traitMethod .moveConstructor q d) →
        f.inputs.length = 2) := by
  have hp := t.hparams.modes hb
  have hre := t.hre
  rw [he] at hre
  rw [t.kind_eq]
  generalize t.kn.kind = kind at hre
  have harity : ∀ {x : Option Err}, laterErr (ctorArity t.ps.length) x = none → f.inputs.length = 2 := by
    intro x hx
    have h1 := (laterErr_none.1 hx).1
    rw [ctorArity] at h1
    split at h1
    · cases h1
    · split at h1
      · cases h1
      · rw [← hp.1]; omega
  rw [reanalyzeParams.eq_def] at hre
  dsimp only at hre
  split at hre
  · refine ⟨(reanalyze_modes hre hp).congr fun k => ?_, fun ⟨q, d, h⟩ => by rcases h with h | h <;> cases h⟩
    cases k with
    | zero => rfl
    | succ k => rfl
  · refine ⟨(reanalyze_modes hre hp).congr fun k => ?_, fun ⟨q, d, h⟩ => by rcases h with h | h <;> cases h⟩
    cases k with
    | zero => rfl
    | succ k => rfl
  · obtain ⟨⟨s1, ps1, e1⟩, h1, hre⟩ := PassRun.bind_done.1 hre
    have h2 : laterErr (ctorArity t.ps.length) e1 = none := by injection hre with hre; exact congrArg (·.2.2) hre
    have h3 : ps1 = t.ps' := by injection hre with hre; exact congrArg (·.2.1) hre
    have := (laterErr_none.1 h2).2
    subst this h3
    refine ⟨(reanalyze_modes h1 hp).congr fun k => ?_, fun _ => harity h2⟩
    cases k with
    | zero => rfl
    | succ k => rfl
  · obtain ⟨⟨s1, ps1, e1⟩, h1, hre⟩ := PassRun.bind_done.1 hre
    obtain ⟨⟨s2, ps2, e2⟩, h2, hre⟩ := PassRun.bind_done.1 hre
    have h3 : laterErr (laterErr (ctorArity t.ps.length) e1) e2 = none := by
      injection hre with hre; exact congrArg (·.2.2) hre
    have h4 : ps2 = t.ps' := by injection hre with hre; exact congrArg (·.2.1) hre
    obtain ⟨h5, h6⟩ := laterErr_none.1 h3
    have := (laterErr_none.1 h5).2
    subst this h6 h4
    refine ⟨(reanalyze_modes h2 (reanalyze_modes h1 hp)).congr fun k => ?_, fun _ => harity h5⟩
    match k with
    | 0 => rfl
    | 1 => rfl
    | k + 2 => rfl
  · rename_i h1 h2 h3 h4
    injection hre with hre
    have : t.ps = t.ps' := congrArg (·.2.1) hre
    rw [← this]
    refine ⟨hp.congr fun k => ?_, fun ⟨q, d, h⟩ => by
      rcases h with h | h
      · exact absurd h (h3 q d)
      · exact absurd h (h4 q d)⟩
    rw [paramMode.eq_def]
    dsimp only
    split
    · exact absurd rfl (h1 _ _)
    · exact absurd rfl (h2 _ _)
    · exact absurd rfl (h3 _ _)
    · exact absurd rfl (h4 _ _)
    · exact absurd rfl (h4 _ _)
    · rfl

/-! ## What each parameter is converted with -/

/-- Unless it is told to, the analysis treats no parameter as the place for a result, nor as a result. -/
theorem argConversion_rust {env : FnEnv} {m : ArgMode} {a : Annotated Ty} {self pl : Bool} {c : TypeConversionPolicy}
    (h : argConversion env m a self pl = some c) (r : RustConversionType) (hf : m.force ≠ some r)
    (hr : r = .fromPlacementParamToNewReturn ∨ r = .fromPointerToReferenceWrapper) : c.rustConversion ≠ r := by
  have force : m.force.getD .none ≠ r := by
    cases hm : m.force with
    | none => rcases hr with rfl | rfl <;> intro h <;> cases h
    | some x => intro h; exact hf (by rw [hm]; exact congrArg some h)
  have path : ∀ {i fo : Bool} {segs args}, pathConversion env m.soph i fo segs args = some c → c.rustConversion ≠ r := by
    intro i fo segs args h
    rw [pathConversion.eq_def] at h
    split at h
    · cases h
    · split at h
      · obtain ⟨e, _, rfl⟩ := Option.map_eq_some_iff.1 h
        rcases hr with rfl | rfl <;> intro h <;> cases h
      · split at h
        · split at h
          · cases h; rcases hr with rfl | rfl <;> intro h <;> cases h
          · cases h; rcases hr with rfl | rfl <;> intro h <;> cases h
        · split at h
          · cases h; rcases hr with rfl | rfl <;> intro h <;> cases h
          · split at h <;> cases h <;> rcases hr with rfl | rfl <;> intro h <;> cases h
  rw [argConversion.eq_def] at h
  dsimp only at h
  split at h
  · obtain ⟨e, _, rfl⟩ := Option.map_eq_some_iff.1 h
    rcases hr with rfl | rfl <;> intro h <;> cases h
  · split at h
    · rename_i hp
      cases h
      rcases hr with rfl | rfl
      · exact absurd hp.1 hf
      · intro h; cases h
    · split at h
      · exact path h
      · split at h
        · cases h; exact force
        · split at h
          · cases h; rcases hr with rfl | rfl <;> intro h <;> cases h
          · split at h
            · cases h; rcases hr with rfl | rfl <;> intro h <;> cases h
            · cases h; exact force
      · split at h
        · split at h
          · cases h
          · cases h; rcases hr with rfl | rfl <;> intro h <;> cases h
        · cases h; exact force
      · cases h; exact force

/-- A place for an object which is a plain pointer is passed on as it is. -/
theorem argConversion_into {env : FnEnv} {m : ArgMode} {a : Annotated Ty} {self : Bool} {c : TypeConversionPolicy}
    (h : argConversion env m a self true = some c) (hf : m.force = none) (hm : m.isMove = false) {mu : Bool} {e : Ty}
    (ht : a.ty = .ptr mu e) (hk : a.kind = .pointer) : c = ⟨.ptr mu e, .none, .none⟩ := by
  rw [argConversion.eq_def] at h
  simp only [hk, hf, hm, ht, Bool.true_eq_false, and_false, if_false] at h
  simpa using h.symm

/-- What a parameter is called in C++. -/
def FnArg.given : FnArg → Ident
  | .typed n _ => n
  | .receiver _ => "self"

/-- What holds of every C++ function as it is described to the analysis, but for what C++ programs may do and the
generated code does not expect: its parameters have different names; a constructor gives nothing back; and no parameter
has a name which is used for variables of the generated function. -/
structure Described (f : FuncToConvert) (kind : FnKind) : Prop where
  distinct : (f.inputs.map FnArg.given).Nodup
  noSpace : ∀ i ∈ f.inputs, ∀ n, i.given ≠ "space" ++ Nat.repr n
  noPlacement : ∀ i ∈ f.inputs, i.given ≠ "placement_return_type"
  noResult : ((∃ b q, kind = .method (.constructor b) q) ∨
    ∃ q d, kind = .traitMethod .copyConstructor q d ∨ kind = .traitMethod .moveConstructor q d) → f.output = none

/-- Whether the generated function may not have a `self`, by its kind. -/
def FnKind.avoidsSelf : FnKind → Bool
  | .method (.constructor _) _ => true
  | .traitMethod .copyConstructor _ _ => true
  | .traitMethod .moveConstructor _ _ => true
  | _ => false

/-- What a parameter becomes: one called `this` is called `self` or stays `this`, and may be the place for an object
if it is a constructor's; any other keeps its name. -/
theorem param_name {env : FnEnv} {f : FuncToConvert} {soph : Sophistication} {kind : FnKind} {ns : List String}
    {diag : QName} {idx : Nat} {i : FnArg} {s1 s2 : FnState} {p : FnArg × ArgumentAnalysis}
    (h : convertFnArg env s1 ns diag (paramMode f soph kind idx) i = .done (s2, .ok p)) :
    (i.given ≠ "this" ∧ i.given ≠ "self" ∧ p.2.name = i.given ∧ p.2.selfType = none ∧ p.2.dest = false ∨
      i.given = "this" ∧ p.2.selfType.isSome = true ∧
        ((p.2.name = "self" ∧ (paramMode f soph kind idx).thisAsReference = true ∨
          p.2.name = "this" ∧ (paramMode f soph kind idx).thisAsReference = false)) ∧
        (p.2.dest = true → (∃ b q, kind = .method (.constructor b) q) ∧ idx = 0 ∧ p.2.name = "this" ∧
          p.2.conversion.rustConversion = .none)) ∧
    p.2.conversion.rustConversion ≠ .fromPlacementParamToNewReturn ∧
    p.2.conversion.rustConversion ≠ .fromPointerToReferenceWrapper := by
  have hforce : (paramMode f soph kind idx).force ≠ some .fromPlacementParamToNewReturn ∧
      (paramMode f soph kind idx).force ≠ some .fromPointerToReferenceWrapper := by
    rw [paramMode.eq_def]
    dsimp only
    split <;> exact ⟨nofun, nofun⟩
  have hinto : (paramMode f soph kind idx).intoSelf = true → (∃ b q, kind = .method (.constructor b) q) ∧ idx = 0 ∧
      (paramMode f soph kind idx).force = none ∧ (paramMode f soph kind idx).isMove = false ∧
      (paramMode f soph kind idx).thisAsReference = false := by
    intro hi
    rw [paramMode.eq_def] at hi ⊢
    dsimp only at hi ⊢
    split at hi
    · exact ⟨⟨_, _, rfl⟩, rfl, rfl, rfl, rfl⟩
    all_goals cases hi
  obtain ⟨name, ty, self, into, hp, hn⟩ := convertFnArg_ok h
  obtain ⟨st, a, conv, hc, _, hv, rfl⟩ := convertNamedArg_ok hn
  generalize hm : paramMode f soph kind idx = m at *
  refine ⟨?_, argConversion_rust hv _ hforce.1 (.inl rfl), argConversion_rust hv _ hforce.2 (.inr rfl)⟩
  have hd : (decide (m.force = some .fromPlacementParamToNewReturn)) = false := decide_eq_false hforce.1
  rw [hd, Bool.or_false] at hv ⊢
  cases hp with
  | thisRef ht hr =>
    refine .inr ⟨rfl, rfl, .inl ⟨rfl, hr⟩, fun hdest => ?_⟩
    have := (hinto hdest).2.2.2.2
    rw [hr] at this
    cases this
  | thisPtr ht hr =>
    refine .inr ⟨rfl, rfl, .inr ⟨rfl, hr⟩, fun hdest => ?_⟩
    obtain ⟨h1, h2, h3, h4, h5⟩ := hinto hdest
    refine ⟨h1, h2, rfl, ?_⟩
    rw [show m.intoSelf = true from hdest] at hv
    have hty : ∃ mu e, ty = .ptr mu e := by
      rw [thisType.eq_def] at ht
      split at ht
      · dsimp only at ht
        split at ht
        · cases ht; exact ⟨_, _, rfl⟩
        · split at ht
          · cases ht
          · cases ht; exact ⟨_, _, rfl⟩
      · cases ht
    obtain ⟨mu, e, rfl⟩ := hty
    obtain ⟨_, b, _, _, rfl⟩ := convert_ptr hc
    rw [argConversion_into hv h3 h4 rfl rfl]
    rfl
  | other hnt hv' =>
    refine .inl ⟨hnt, ?_, rfl, rfl, rfl⟩
    intro hs
    change name = "self" at hs
    rw [hs] at hv'
    exact absurd hv' (by decide)

/-- The place for the object a constructor makes is given as a plain pointer. -/
theorem dest_pointer {env : FnEnv} {f : FuncToConvert} {soph : Sophistication} {kind : FnKind} {ns : List String}
    {diag : QName} {idx : Nat} {i : FnArg} {s1 s2 : FnState} {p : FnArg × ArgumentAnalysis}
    (h : convertFnArg env s1 ns diag (paramMode f soph kind idx) i = .done (s2, .ok p)) (hd : p.2.dest = true) :
    ∃ mu e, p.2.conversion = ⟨.ptr mu e, .none, .none⟩ := by
  have hk := (param_name h).1
  obtain ⟨name, ty, self, into, hp, hn⟩ := convertFnArg_ok h
  obtain ⟨st, a, conv, hc, _, hv, rfl⟩ := convertNamedArg_ok hn
  rcases hk with ⟨_, _, _, _, hk⟩ | ⟨_, _, _, hk⟩
  · rw [hk] at hd; cases hd
  obtain ⟨⟨b, q, rfl⟩, rfl, _⟩ := hk hd
  cases hp with
  | thisRef ht hr => cases hr
  | thisPtr ht hr =>
    have hty : ∃ mu e, ty = .ptr mu e := by
      rw [thisType.eq_def] at ht
      split at ht
      · dsimp only at ht
        split at ht
        · cases ht; exact ⟨_, _, rfl⟩
        · split at ht
          · cases ht
          · cases ht; exact ⟨_, _, rfl⟩
      · cases ht
    obtain ⟨mu, e, rfl⟩ := hty
    obtain ⟨_, b, _, _, rfl⟩ := convert_ptr hc
    exact ⟨_, _, argConversion_into hv rfl rfl rfl rfl⟩
  | other hnt hv' => cases hd

/-! ## The parameters are sound -/

theorem All2.of_getElem {α β : Type} {R : α → β → Prop} : ∀ {l : List α} {m : List β}, m.length = l.length →
    (∀ (idx : Nat) (b : β), m[idx]? = some b → ∃ a, l[idx]? = some a ∧ R a b) → All2 R l m
  | [], [], _, _ => .nil
  | [], _ :: _, h, _ => by cases h
  | _ :: _, [], h, _ => by cases h
  | a :: l, b :: m, hl, h => by
    refine .cons ?_ (All2.of_getElem (by simpa using hl) fun idx b hb => h (idx + 1) b hb)
    obtain ⟨a', ha, hr⟩ := h 0 b rfl
    cases ha
    exact hr

theorem All2.nodup {α β γ δ : Type} {R : α → β → Prop} {f : α → γ} {g : β → δ}
    (hi : ∀ a b a' b', R a b → R a' b' → g b = g b' → f a = f a') {l : List α} {m : List β} (h : All2 R l m)
    (hn : (l.map f).Nodup) : (m.map g).Nodup := by
  induction h with
  | nil => exact List.nodup_nil
  | cons hr t ih =>
    rw [List.map_cons, List.nodup_cons] at hn ⊢
    refine ⟨fun hm => hn.1 ?_, ih hn.2⟩
    obtain ⟨b', hb', e⟩ := List.mem_map.1 hm
    obtain ⟨a', ha', hr'⟩ := t.right hb'
    exact List.mem_map.2 ⟨a', ha', (hi _ _ _ _ hr hr' e.symm).symm⟩

theorem self_not_space (n : Nat) : "self" ≠ "space" ++ Nat.repr n := by
  intro h
  have := congrArg (fun s => s.toList[1]?) h
  rw [String.toList_append] at this
  exact absurd this (by simp)

theorem this_not_space (n : Nat) : "this" ≠ "space" ++ Nat.repr n := by
  intro h
  have := congrArg (fun s => s.toList[0]?) h
  rw [String.toList_append] at this
  exact absurd this (by simp)

theorem placement_not_space (n : Nat) : "placement_return_type" ≠ "space" ++ Nat.repr n := by
  intro h
  have := congrArg (fun s => s.toList[0]?) h
  rw [String.toList_append] at this
  exact absurd this (by simp)

/-- The parameter for the result, if there is one, and what is done with the result. -/
theorem FnSteps.rest {env : FnEnv} {s s' : FnState} {name n : ApiName} {f : FuncToConvert} {soph : Sophistication}
    {pre : Option String} {a : FnAnalysis} (t : FnSteps env s name f soph pre s' a n) :
    (∀ p ∈ t.ret.placement.toList, p.2.ForResult ∧ p.2.selfType = none ∧ f.output.isSome = true) ∧
    (∀ c, a.retConversion = some c → c.rustConversion = .none ∨ c.rustConversion = .fromPointerToReferenceWrapper) := by
  rw [t.retConversion_eq]
  rcases t.hret with ⟨hr, _⟩ | ⟨e, _, hr, _⟩
  · have hr := convertReturn_ok hr
    generalize f.output = out at hr ⊢
    generalize t.ret = ret at hr ⊢
    generalize t.s4 = s4 at hr
    cases hr with
    | nothing => exact ⟨fun p hp => by (cases hp), fun c hc => by cases hc⟩
    | plain h1 hp hr =>
      obtain ⟨c, hc, rfl⟩ := Option.map_eq_some_iff.1 hr
      refine ⟨fun p hp => by (cases hp), fun c' hc' => ?_⟩
      cases hc'
      split at hc
      · rw [TypeConversionPolicy.returnReferenceIntoWrapper.eq_def] at hc
        split at hc
        · cases hc; exact .inr rfl
        · obtain ⟨e, _, rfl⟩ := Option.map_eq_some_iff.1 hc
          exact .inr rfl
        · cases hc
      · cases hc; exact .inl rfl
    | value h1 ht hq hp hr =>
      rcases valueReturn_ok hr with ⟨p, _, _, h2, rfl⟩ | ⟨_, _, rfl⟩
      · refine ⟨fun q hq => ?_, fun c hc => ?_⟩
        · cases List.mem_singleton.1 hq
          refine ⟨valueReturn_forResult h2, ?_, rfl⟩
          obtain ⟨_, h3⟩ := convertFnArg_other (by decide) h2
          obtain ⟨st, a, conv, _, _, _, rfl⟩ := convertNamedArg_ok h3
          rfl
        · cases hc; exact .inl rfl
      · exact ⟨fun p hp => by (cases hp), fun c hc => by cases hc; exact .inl rfl⟩
  · rw [hr]; exact ⟨fun p hp => by (cases hp), fun c hc => by cases hc⟩

/-- The parameters which were made for those in C++, with the modes forgotten. -/
theorem InModes.all2 {env : FnEnv} {ns : List String} {diag : QName} {mode : Nat → ArgMode} {inputs : List FnArg}
    {ps : List (FnArg × ArgumentAnalysis)} (h : InModes env ns diag mode inputs ps) :
    All2 (fun i p => ∃ idx s1 s2, convertFnArg env s1 ns diag (mode idx) i = .done (s2, .ok p)) inputs ps :=
  All2.of_getElem h.1 fun idx p hp => by
    obtain ⟨i, s1, s2, hi, hc⟩ := h.2 idx p hp
    exact ⟨i, hi, idx, s1, s2, hc⟩

/-- The name of a parameter in the generated function. -/
theorem wrapper_name {env : FnEnv} {f : FuncToConvert} {soph : Sophistication} {kind : FnKind} {ns : List String}
    {diag : QName} {idx : Nat} {i : FnArg} {s1 s2 : FnState} {p : FnArg × ArgumentAnalysis} (av : Bool)
    (h : convertFnArg env s1 ns diag (paramMode f soph kind idx) i = .done (s2, .ok p)) :
    i.given ≠ "this" ∧ i.given ≠ "self" ∧ wrapperArgName av p.2 = i.given ∨
      i.given = "this" ∧ (wrapperArgName av p.2 = "self" ∨ wrapperArgName av p.2 = "this") := by
  rcases (param_name h).1 with ⟨h1, h2, h3, h4, _⟩ | ⟨h1, h2, h3, _⟩
  · refine .inl ⟨h1, h2, ?_⟩
    rw [wrapperArgName, h4, h3]
    simp
  · refine .inr ⟨h1, ?_⟩
    rw [wrapperArgName, h2, Bool.true_and]
    split
    · exact .inl rfl
    · rcases h3 with ⟨h3, _⟩ | ⟨h3, _⟩
      · exact .inl h3
      · exact .inr h3

/-- Every function which is offered, but for what `Described` excludes, has parameters for which the generated code is
right. -/
theorem FnSteps.sound {env : FnEnv} {s s' : FnState} {name n : ApiName} {f : FuncToConvert} {soph : Sophistication}
    {pre : Option String} {a : FnAnalysis} (t : FnSteps env s name f soph pre s' a n) (hx : a.ignoreReason = none)
    (hd : Described f a.kind) : SoundParams a.kind.avoidsSelf a.paramDetails := by
  obtain ⟨he, _, _, hb, _, _⟩ := exposed_parts t hx
  obtain ⟨hm, _⟩ := t.modes he hb
  obtain ⟨hrest, _⟩ := t.rest
  have h2 := hm.all2
  have hdet := t.details_eq
  have hmem : ∀ pd ∈ a.paramDetails, (∃ idx s1 s2 i p, i ∈ f.inputs ∧ p.2 = pd ∧
        convertFnArg env s1 name.name.ns ⟨name.name.ns, t.diag⟩ (paramMode f soph a.kind idx) i = .done (s2, .ok p)) ∨
      pd.ForResult ∧ pd.selfType = none ∧ f.output.isSome = true := by
    intro pd hpd
    rw [hdet] at hpd
    obtain ⟨p, hp, rfl⟩ := List.mem_map.1 hpd
    rcases List.mem_append.1 hp with hp | hp
    · obtain ⟨i, hi, idx, s1, s2, hc⟩ := h2.right hp
      exact .inl ⟨idx, s1, s2, i, p, hi, rfl, hc⟩
    · exact .inr (hrest p hp)
  have hname : ∀ pd : ArgumentAnalysis, pd.ForResult → pd.selfType = none →
      wrapperArgName a.kind.avoidsSelf pd = "placement_return_type" := by
    intro pd h1 h2
    rw [wrapperArgName, h2, h1.1]
    simp
  have hfirst : ∀ p ∈ t.ps'.tail, p.2.dest = false := by
    intro p hp
    obtain ⟨idx, hidx⟩ := List.mem_iff_getElem?.1 hp
    rw [List.getElem?_tail] at hidx
    obtain ⟨i, s1, s2, _, hc⟩ := hm.2 _ _ hidx
    rcases (param_name hc).1 with ⟨_, _, _, _, h⟩ | ⟨_, _, _, h⟩
    · exact h
    · cases hq : p.2.dest with
      | false => rfl
      | true => have := (h hq).2.1; omega
  have hctor : f.output.isSome = true → ∀ p ∈ t.ps', p.2.dest = false := by
    intro ho p hp
    obtain ⟨i, hi, idx, s1, s2, hc⟩ := h2.right hp
    rcases (param_name hc).1 with ⟨_, _, _, _, h⟩ | ⟨_, _, _, h⟩
    · exact h
    · cases hq : p.2.dest with
      | false => rfl
      | true =>
        rw [hd.noResult (.inl (h hq).1)] at ho
        cases ho
  refine ⟨?_, ?_, ?_, ?_, ?_⟩
  · rw [hdet, List.map_append, List.map_append, List.nodup_append]
    refine ⟨?_, ?_, ?_⟩
    · rw [List.map_map]
      refine All2.nodup ?_ h2 hd.distinct
      rintro i p i' p' ⟨idx, s1, s2, hc⟩ ⟨idx', s1', s2', hc'⟩ e
      dsimp only [Function.comp] at e
      rcases wrapper_name a.kind.avoidsSelf hc with ⟨w1, w2, w3⟩ | ⟨w1, w2⟩ <;>
        rcases wrapper_name a.kind.avoidsSelf hc' with ⟨v1, v2, v3⟩ | ⟨v1, v2⟩
      · rw [← w3, ← v3, e]
      · rw [w3] at e
        rcases v2 with v2 | v2
        · rw [v2] at e; exact absurd e w2
        · rw [v2] at e; exact absurd e w1
      · rw [v3] at e
        rcases w2 with w2 | w2
        · rw [w2] at e; exact absurd e.symm v2
        · rw [w2] at e; exact absurd e.symm v1
      · rw [w1, v1]
    · cases t.ret.placement with
      | none => exact List.nodup_nil
      | some p => exact List.nodup_cons.2 ⟨List.not_mem_nil, List.nodup_nil⟩
    · intro x hx y hy e
      rw [List.map_map] at hx hy
      obtain ⟨p, hp, rfl⟩ := List.mem_map.1 hx
      obtain ⟨p', hp', rfl⟩ := List.mem_map.1 hy
      obtain ⟨h1, h3, _⟩ := hrest p' hp'
      obtain ⟨i, hi, idx, s1, s2, hc⟩ := h2.right hp
      dsimp only [Function.comp] at e
      rw [hname _ h1 h3] at e
      rcases wrapper_name a.kind.avoidsSelf hc with ⟨_, _, w3⟩ | ⟨_, w2 | w2⟩
      · rw [w3] at e; exact hd.noPlacement i hi e
      · rw [w2] at e; exact absurd e (by decide)
      · rw [w2] at e; exact absurd e (by decide)
  · intro pd hpd k
    rcases hmem pd hpd with ⟨idx, s1, s2, i, p, hi, rfl, hc⟩ | ⟨h1, h3, _⟩
    · rcases wrapper_name a.kind.avoidsSelf hc with ⟨_, _, w3⟩ | ⟨_, w2 | w2⟩
      · rw [w3]; exact hd.noSpace i hi k
      · rw [w2]; exact self_not_space k
      · rw [w2]; exact this_not_space k
    · rw [hname _ h1 h3]; exact placement_not_space k
  · rw [hdet, List.map_append, List.filter_append, List.length_append]
    have none_of : ∀ {l : List (FnArg × ArgumentAnalysis)}, (∀ p ∈ l, p.2.dest = false) →
        ((l.map (·.2)).filter (·.dest)).length = 0 := by
      intro l hl
      rw [List.length_eq_zero_iff, List.filter_eq_nil_iff]
      intro pd hpd
      obtain ⟨p, hp, rfl⟩ := List.mem_map.1 hpd
      rw [hl p hp]
      simp
    cases hpl : t.ret.placement with
    | none =>
      rw [show ((Option.toList (none : Option (FnArg × ArgumentAnalysis))).map (·.2)).filter (·.dest) = [] from rfl]
      cases hps : t.ps' with
      | nil => exact Nat.zero_le _
      | cons p l =>
        rw [hps] at hfirst
        have := none_of (l := l) (fun q hq => hfirst q hq)
        rw [List.map_cons, List.filter_cons]
        split
        · rw [List.length_cons, this]; exact Nat.le_refl _
        · rw [this]; exact Nat.zero_le _
    | some p =>
      have ho := (hrest p (by rw [hpl]; exact List.mem_singleton.2 rfl)).2.2
      rw [none_of (hctor ho), Nat.zero_add]
      exact (List.length_filter_le _ _)
  · intro pd hpd hdest
    rcases hmem pd hpd with ⟨idx, s1, s2, i, p, hi, rfl, hc⟩ | ⟨h1, h3, _⟩
    · rcases (param_name hc).1 with ⟨_, _, _, _, h⟩ | ⟨_, _, _, h⟩
      · rw [h] at hdest; cases hdest
      · obtain ⟨⟨b, q, hk⟩, _, h4, h5⟩ := h hdest
        refine ⟨?_, .inl h5⟩
        rw [wrapperArgName, hk]
        simp [FnKind.avoidsSelf]
    · exact ⟨(hname _ h1 h3).trans h1.1.symm, .inr h1.2.2⟩
  · intro pd hpd hdest
    rcases hmem pd hpd with ⟨idx, s1, s2, i, p, hi, rfl, hc⟩ | ⟨h1, h3, _⟩
    · exact (param_name hc).2
    · rw [ArgumentAnalysis.dest, h1.2.1] at hdest; cases hdest

/-! ## Every generated function -/

/-- The functions which are generated outside of the bridge. -/
def FnResult.fns (r : FnResult) : List RsFnItem :=
  (r.piece.items.filterMap fun i => match i with
    | .fn f => some f
    | .useBridge .. => none) ++ r.piece.implEntry.toList.map (·.2) ++ r.piece.traitImplEntry.toList.map (·.2)

theorem commonParts_of_fns {name : QName} {a : FnAnalysis} {nonPod : List QName} {r : FnResult} {it : RsFnItem}
    (hg : genFunction name a nonPod = some r) (hit : it ∈ r.fns) :
    a.rustWrapperNeeded = true ∧
      ∃ ret, commonParts (a.gen nonPod)
        (match a.kind with
          | .method (.constructor _) _ => true
          | .traitMethod _ _ d => d.avoidSelf
          | _ => false)
        (match a.kind with
          | .traitMethod _ _ d => d.parameterReordering
          | _ => none) ret = some (it.sig, it.body) ∧
        ((∃ b q, a.kind = .method (.constructor b) q) ∧ ret = some (.impl (.newOf (.path ["Self"] [])) []) ∨
          (∀ b q, a.kind ≠ .method (.constructor b) q) ∧ ret = none) ∧
        it.isUnsafe = a.requiresUnsafe.wrapperToken := by
  rw [genFunction] at hg
  split at hg
  · cases hg; cases hit
  · obtain ⟨piece, hp, hg⟩ := Option.bind_eq_some_iff.1 hg
    obtain ⟨b, _, rfl⟩ := Option.map_eq_some_iff.1 hg
    rw [fnPiece] at hp
    split at hp
    · rename_i hw
      refine ⟨hw, ?_⟩
      split at hp
      · rename_i hk
        obtain ⟨e, he, rfl⟩ := Option.map_eq_some_iff.1 hp
        obtain ⟨⟨sig, body⟩, hc, rfl⟩ := Option.map_eq_some_iff.1 he
        cases List.mem_singleton.1 hit
        rw [hk]
        exact ⟨_, hc, .inl ⟨⟨_, _, rfl⟩, rfl⟩, rfl⟩
      · rename_i mk q hn hk
        obtain ⟨e, he, rfl⟩ := Option.map_eq_some_iff.1 hp
        obtain ⟨⟨sig, body⟩, hc, rfl⟩ := Option.map_eq_some_iff.1 he
        cases List.mem_singleton.1 hit
        rw [hk]
        refine ⟨none, ?_, .inr ⟨fun b q h => ?_, rfl⟩, rfl⟩
        · cases mk with
          | constructor b => exact absurd rfl (hn b)
          | normal => exact hc
          | static => exact hc
          | virtual => exact hc
          | pureVirtual => exact hc
        · cases h; exact absurd rfl (hn b)
      · rename_i hk
        obtain ⟨e, he, rfl⟩ := Option.map_eq_some_iff.1 hp
        obtain ⟨⟨sig, body⟩, hc, rfl⟩ := Option.map_eq_some_iff.1 he
        cases List.mem_singleton.1 hit
        rw [hk]
        exact ⟨none, hc, .inr ⟨fun b q h => (by cases h), rfl⟩, rfl⟩
      · rename_i hk
        obtain ⟨e, he, rfl⟩ := Option.map_eq_some_iff.1 hp
        obtain ⟨⟨sig, body⟩, hc, rfl⟩ := Option.map_eq_some_iff.1 he
        cases List.mem_singleton.1 hit
        rw [hk]
        exact ⟨none, hc, .inr ⟨fun b q h => (by cases h), rfl⟩, rfl⟩
    · split at hp
      · cases hp; cases hit
      · cases hp; cases hit

theorem castDetails_self (p q : QName) (mu : CastMutability) :
    (castDetails p q mu).avoidSelf = false ∧ (castDetails p q mu).parameterReordering = none := by
  cases mu <;> exact ⟨rfl, rfl⟩

/-- The details of a trait's method tell whether it has a `self` and how its parameters are ordered. -/
theorem FnSteps.trait_details {env : FnEnv} {s s' : FnState} {name n : ApiName} {f : FuncToConvert} {soph : Sophistication}
    {pre : Option String} {a : FnAnalysis} (t : FnSteps env s name f soph pre s' a n) (hb : t.bads = []) :
    (match a.kind with
      | .method (.constructor _) _ => true
      | .traitMethod _ _ d => d.avoidSelf
      | _ => false) = a.kind.avoidsSelf ∧
    (∀ o, (match a.kind with
      | .traitMethod _ _ d => d.parameterReordering
      | _ => none) = some o → o = [1, 0] ∧
        ∃ q d, a.kind = .traitMethod .copyConstructor q d ∨ a.kind = .traitMethod .moveConstructor q d) := by
  obtain ⟨base, hk, _⟩ := t.bound hb
  generalize a.kind = kind at hk ⊢
  cases hk
  case cast h hm =>
    refine ⟨(castDetails_self ..).1, fun o ho => ?_⟩
    dsimp only at ho
    rw [(castDetails_self ..).2] at ho
    cases ho
  case move => exact ⟨rfl, fun o ho => by cases ho; exact ⟨rfl, _, _, .inr rfl⟩⟩
  case copy => exact ⟨rfl, fun o ho => by cases ho; exact ⟨rfl, _, _, .inl rfl⟩⟩
  all_goals exact ⟨rfl, fun o ho => by cases ho⟩

/-- The order for the parameters of a trait's method has each of them once. -/
theorem FnSteps.order_perm {env : FnEnv} {s s' : FnState} {name n : ApiName} {f : FuncToConvert}
    {soph : Sophistication} {pre : Option String} {a : FnAnalysis} (t : FnSteps env s name f soph pre s' a n)
    (hx : a.ignoreReason = none) (hd : Described f a.kind) (nonPod : List QName) :
    ∀ o, (match a.kind with
      | .traitMethod _ _ d => d.parameterReordering
      | _ => none) = some o → o.Perm (List.range ((a.gen nonPod).details.filter fun pd => !pd.dest).length) := by
  obtain ⟨he, _, _, hb, _, _⟩ := exposed_parts t hx
  obtain ⟨hm, harity⟩ := t.modes he hb
  obtain ⟨hrest, hret⟩ := t.rest
  obtain ⟨h1, h2⟩ := t.trait_details hb
  intro o ho
  obtain ⟨rfl, hk⟩ := h2 o ho
  have hlen : ((a.gen nonPod).details.filter fun pd => !pd.dest).length = 2 := by
    show (a.paramDetails.filter fun pd => !pd.dest).length = 2
    have hout := hd.noResult (.inr hk)
    have hpl : t.ret.placement = none := by
      cases hp : t.ret.placement with
      | none => rfl
      | some p =>
        have := (hrest p (by rw [hp]; exact List.mem_singleton.2 rfl)).2.2
        rw [hout] at this
        cases this
    have hdet := t.details_eq
    rw [hpl] at hdet
    have hall : (a.paramDetails.filter fun pd => !pd.dest) = a.paramDetails := by
      rw [List.filter_eq_self]
      intro pd hpd
      rw [hdet] at hpd
      obtain ⟨p, hp, rfl⟩ := List.mem_map.1 hpd
      rw [Option.toList_none, List.append_nil] at hp
      obtain ⟨i, hi, idx, s1, s2, hc⟩ := hm.all2.right hp
      rcases (param_name hc).1 with ⟨_, _, _, _, h⟩ | ⟨_, _, _, h⟩
      · rw [h]; rfl
      · cases hq : p.2.dest with
        | false => rfl
        | true =>
          obtain ⟨⟨b, q, hk'⟩, _⟩ := h hq
          obtain ⟨q', d, hk | hk⟩ := hk <;> rw [hk] at hk' <;> cases hk'
    rw [hall, hdet, List.length_map, Option.toList_none, List.append_nil, hm.1, harity hk]
  rw [hlen]
  exact List.Perm.swap 0 1 []

/-- Every function generated for one which is offered calls the function of the bridge made for it exactly once and
no other, with every argument in its place, and gives back what it gave. -/
theorem generated_calls {env : FnEnv} {s s' : FnState} {name n : ApiName} {f : FuncToConvert}
    {soph : Sophistication} {pre : Option String} {a : FnAnalysis} {nonPod : List QName} {r : FnResult} {it : RsFnItem}
    (h : analyzeForeignFn env s name f soph pre = .done (s', a, n)) (hx : a.ignoreReason = none)
    (hd : Described f a.kind) (hg : genFunction n.name a nonPod = some r) (hit : it ∈ r.fns) :
    ∃ st v args, Rs.runBody it.body { env := it.sig.vars } = some (st, v) ∧
      args = a.paramDetails.map (fun pd => handedOver pd (wrapperArgName a.kind.avoidsSelf pd)) ∧
      st.calls = [⟨a.paramDetails.any (·.dest), a.cxxbridgeName, args⟩] ∧
      v = (if a.paramDetails.any (·.dest) then .later
        else handedBack (a.gen nonPod) (.result a.cxxbridgeName args)) := by
  obtain ⟨t⟩ := analyze_steps h
  obtain ⟨he, _, _, hb, _, _⟩ := exposed_parts t hx
  obtain ⟨_, hret⟩ := t.rest
  obtain ⟨_, ret, hc, _, _⟩ := commonParts_of_fns hg hit
  obtain ⟨h1, h2⟩ := t.trait_details hb
  rw [h1] at hc
  obtain ⟨st, v, hr, hcalls, hv⟩ := wrapper_calls_once hc (t.sound hx hd) (t.order_perm hx hd nonPod) hret
  exact ⟨st, v, _, hr, rfl, hcalls, hv⟩

/-- The parameter of the generated function a value is made of. -/
def RVal.source : RVal → Option Ident
  | .arg n => some n
  | .cppString v | .boxed _ v | .uninitPtr v | .movedRef v | .rawPtr _ v | .slotPtr _ v => v.source
  | _ => none

theorem handedOver_source {pd : ArgumentAnalysis} {nm : Ident} :
    pd.dest = true ∧ handedOver pd nm = .placePtr ∨ pd.dest = false ∧ (handedOver pd nm).source = some nm := by
  cases hd : pd.dest with
  | true => exact .inl ⟨rfl, by rw [handedOver, hd]; rfl⟩
  | false =>
    refine .inr ⟨rfl, ?_⟩
    rw [handedOver, hd]
    simp only [Bool.false_eq_true, if_false]
    split <;> first | rfl | skip
    split <;> rfl

/-- **C26**, the Rust side: every Rust function generated for a C++ function which is offered – a function, a method, a
constructor or a method of a trait – calls one function of the bridge, once. It gives it one argument for each parameter
of the C++ function, in the same order: the one made of the argument which the caller gave for that parameter, or, for
the object a constructor makes, the place for it. A further argument is the place for the result. -/
theorem generated_calls_once {env : FnEnv} {s s' : FnState} {name n : ApiName} {f : FuncToConvert}
    {soph : Sophistication} {pre : Option String} {a : FnAnalysis} {nonPod : List QName} {r : FnResult} {it : RsFnItem}
    (h : analyzeForeignFn env s name f soph pre = .done (s', a, n)) (hx : a.ignoreReason = none)
    (hd : Described f a.kind) (hg : genFunction n.name a nonPod = some r) (hit : it ∈ r.fns) :
    ∃ st v deferred args rest, Rs.runBody it.body { env := it.sig.vars } = some (st, v) ∧
      st.calls = [⟨deferred, a.cxxbridgeName, args ++ rest⟩] ∧
      All2 (fun i w => (w = .placePtr ∧ i.given = "this" ∧ ∃ b q, a.kind = .method (.constructor b) q) ∨
        ∃ p, w.source = some p ∧ (i.given ≠ "this" ∧ p = i.given ∨ i.given = "this" ∧ (p = "self" ∨ p = "this")))
        f.inputs args ∧
      (rest = [] ∨ rest = [.placePtr] ∧ f.output.isSome = true) ∧
      (deferred = true ↔ .placePtr ∈ args ++ rest) ∧ (deferred = true → v = .later) := by
  obtain ⟨st, v, args, hr, hargs, hcalls, hv⟩ := generated_calls h hx hd hg hit
  obtain ⟨t⟩ := analyze_steps h
  obtain ⟨he, _, _, hb, _, _⟩ := exposed_parts t hx
  obtain ⟨hm, _⟩ := t.modes he hb
  obtain ⟨hrest, _⟩ := t.rest
  have hdet := t.details_eq
  have hover : ∀ pd : ArgumentAnalysis, pd.ForResult →
      handedOver pd (wrapperArgName a.kind.avoidsSelf pd) = .placePtr := by
    intro pd hpd
    rw [handedOver, ArgumentAnalysis.dest, hpd.2.1]
    rfl
  have hdec : ∀ pd nm, (handedOver pd nm = .placePtr ↔ pd.dest = true) := by
    intro pd nm
    rcases handedOver_source (pd := pd) (nm := nm) with ⟨h1, h2⟩ | ⟨h1, h2⟩
    · exact ⟨fun _ => h1, fun _ => h2⟩
    · refine ⟨fun h3 => ?_, fun h3 => ?_⟩
      · rw [h3] at h2; cases h2
      · rw [h1] at h3; cases h3
  refine ⟨st, v, a.paramDetails.any (·.dest), t.ps'.map (fun p => handedOver p.2 (wrapperArgName a.kind.avoidsSelf p.2)),
    t.ret.placement.toList.map (fun p => handedOver p.2 (wrapperArgName a.kind.avoidsSelf p.2)), hr, ?_, ?_, ?_, ?_, ?_⟩
  · rw [hcalls, hargs]
    conv => lhs; arg 1; arg 3; rw [hdet]
    rw [List.map_map, List.map_append]
    rfl
  · refine (hm.all2.mono fun i p _ hR => ?_).map_right
    obtain ⟨idx, s1, s2, hc⟩ := hR
    rcases handedOver_source (pd := p.2) (nm := wrapperArgName a.kind.avoidsSelf p.2) with ⟨h1, h2⟩ | ⟨h1, h2⟩
    · rcases (param_name hc).1 with ⟨_, _, _, _, h⟩ | ⟨h3, _, _, h⟩
      · rw [h] at h1; cases h1
      · exact .inl ⟨h2, h3, (h h1).1⟩
    · refine .inr ⟨_, h2, ?_⟩
      rcases wrapper_name a.kind.avoidsSelf hc with ⟨w1, _, w3⟩ | ⟨w1, w2⟩
      · exact .inl ⟨w1, w3⟩
      · exact .inr ⟨w1, w2⟩
  · cases hp : t.ret.placement with
    | none => exact .inl rfl
    | some p =>
      rw [hp] at hrest
      obtain ⟨h1, _, h3⟩ := hrest p (List.mem_singleton.2 rfl)
      refine .inr ⟨?_, h3⟩
      show [handedOver p.2 (wrapperArgName a.kind.avoidsSelf p.2)] = _
      rw [hover _ h1]
  · rw [← List.map_append, List.any_eq_true, hdet]
    constructor
    · rintro ⟨pd, hpd, h1⟩
      obtain ⟨p, hp, rfl⟩ := List.mem_map.1 hpd
      exact List.mem_map.2 ⟨p, hp, (hdec _ _).2 h1⟩
    · intro h1
      obtain ⟨p, hp, h2⟩ := List.mem_map.1 h1
      exact ⟨p.2, List.mem_map_of_mem hp, (hdec _ _).1 h2⟩
  · intro h1
    rw [hv, h1]
    rfl

end Verif
