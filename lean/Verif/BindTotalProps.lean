import Verif.FnTotalProps
import Verif.FnStateProps
import Verif.ParseItemsProps
import Verif.LifetimeProps
import Verif.SubFnProps

/-!
# Bindings can be made for every function which is offered

C71: making the Rust code for a function does not panic.
-/

set_option autoImplicit false

namespace Verif

/-! ### Types which can be given a lifetime -/

/-- Not something which looks like a `Pin` but does not hold a reference. -/
def PinFit : Ty → Prop
  | .path segs args => addLifetimeToPinned segs args ≠ .panic
  | _ => True

theorem pinned_panic {segs : List String} {args : List Ty} (h : addLifetimeToPinned segs args = .panic) :
    ∃ a r, (a = "std" ∨ a = "core") ∧ segs = a :: "pin" :: "Pin" :: r := by
  unfold addLifetimeToPinned at h
  split at h
  · cases h
  · split at h
    · cases h
    · rename_i h1
      split at h
      · cases h
      · split at h
        · cases h
        · rename_i h2
          split at h
          · cases h
          · split at h
            · cases h
            · rename_i h3
              refine ⟨_, _, ?_, by rw [Decidable.not_not.1 h2, Decidable.not_not.1 h3]⟩
              by_contra hc
              push Not at hc
              exact h1 hc

set_option maxRecDepth 10000 in
theorem known_pin_table : ∀ n ∈ knownTypesLit.allNames,
    OptAll (fun d => d.cppName = "Pin" ∨ d.toTypePath[2]? ≠ some "Pin") (knownTypesLit.get n) := by decide +kernel

theorem known_not_pin {q : QName} {d : TypeDetails} (h : knownGet q = some d) :
    d.cppName = "Pin" ∨ d.toTypePath[2]? ≠ some "Pin" := by
  refine known_forall (fun _ d => d.cppName = "Pin" ∨ d.toTypePath[2]? ≠ some "Pin") ?_ h
  intro n hn d hd
  have := known_pin_table n hn
  rw [hd] at this
  exact this

theorem fit_known {q : QName} {d : TypeDetails} (h : knownGet q = some d) (hp : ¬ IsPin q) (args : List Ty) :
    PinFit (.path d.toTypePath args) := by
  intro hc
  obtain ⟨a, r, -, e⟩ := pinned_panic hc
  rcases known_not_pin h with h' | h'
  · refine hp ?_
    rw [IsPin, QName.toCppName, specialCppName, h]
    exact h'
  · exact h' (by rw [e]; rfl)

theorem fit_output (l : List String) (args : List Ty) : PinFit (.path ("output" :: l) args) := by
  intro hc
  obtain ⟨a, r, h, e⟩ := pinned_panic hc
  cases e
  rcases h with h | h <;> exact absurd (congrArg String.toList h) (by decide)

theorem fit_typePath {q : QName} (hp : ¬ IsPin q) (args : List Ty) : PinFit (.path q.toTypePath args) := by
  rw [QName.toTypePath, considerSubstitution]
  cases hk : knownGet q with
  | some d => exact fit_known hk hp args
  | none => exact fit_output _ _

theorem isKnown_corePin : ∀ a, a = "std" ∨ a = "core" → ∃ d, knownGet ⟨[a, "pin"], "Pin"⟩ = some d ∧ d.cppName = "Pin" := by
  have h : ∀ a ∈ ["std", "core"], OptAll (fun d => d.cppName = "Pin") (knownTypesLit.get ⟨[a, "pin"], "Pin"⟩) := by
    decide +kernel
  intro a ha
  rw [knownGet_eq_lit]
  have := h a (by simpa using ha)
  cases hk : knownTypesLit.get ⟨[a, "pin"], "Pin"⟩ with
  | none => rw [hk] at this; exact this.elim
  | some d => rw [hk] at this; exact ⟨d, rfl, this⟩

/-- A path which is written in C++ code, or in a typedef, and is not `Pin`. -/
theorem fit_substituted {tn : QName} {s : List String} (hs : QName.ofTypePath s = some tn) (hp : ¬ IsPin tn)
    (hshort : knownGet tn = none → ∀ a y r, (a = "std" ∨ a = "core") → s ≠ a :: "pin" :: "Pin" :: y :: r)
    (args : List Ty) : PinFit (.path (substitutePath tn s) args) := by
  rw [substitutePath.eq_def, considerSubstitution]
  cases hk : knownGet tn with
  | some d => exact fit_known hk hp args
  | none =>
    dsimp only [Option.map_none]
    cases s with
    | nil => cases hs
    | cons x l =>
      dsimp only
      split
      · exact fit_output _ _
      · rename_i hx
        intro hc
        obtain ⟨a, r, ha, e⟩ := pinned_panic hc
        rw [e] at hs hshort
        cases r with
        | cons y r => exact hshort hk _ _ _ ha rfl
        | nil =>
          have : tn = ⟨[a, "pin"], "Pin"⟩ := by
            rcases ha with rfl | rfl <;> exact (Option.some.inj hs).symm
          obtain ⟨d, hd, -⟩ := isKnown_corePin a ha
          rw [this, hd] at hk
          cases hk

theorem fit_finish {env : ConvEnv} {ctx : ConvCtx} {a b : Annotated Ty} (h : finishPath env ctx b = .ok a)
    (hb : PinFit b.ty) : PinFit a.ty := by
  rcases finishPath_ok h with ⟨rfl, -⟩ | ⟨rfl, -⟩
  · exact hb
  · trivial

theorem rooted_not_pin {a y : String} {r l : List String} {x : String} (hx : x = "root" ∨ x = "output")
    (ha : a = "std" ∨ a = "core") : x :: l ≠ a :: "pin" :: "Pin" :: y :: r := by
  intro e
  have := (List.cons.inj e).1
  rcases hx with rfl | rfl <;> rcases ha with rfl | rfl <;> exact absurd (congrArg String.toList this) (by decide)

theorem qualified_not_pin {env : ConvEnv} {ns segs s : List String} (h : qualifyPath env ns segs = .ok s) {tn : QName}
    (hs : QName.ofTypePath s = some tn) (hk : knownGet tn = none) :
    ∀ a y r, (a = "std" ∨ a = "core") → s ≠ a :: "pin" :: "Pin" :: y :: r := by
  intro a y r ha
  rw [qualifyPath.eq_def] at h
  split at h
  · cases h
  · split at h
    · rename_i hx
      cases h
      exact rooted_not_pin hx ha
    · split at h
      · cases h
      · rename_i ty hty
        split at h
        · rename_i hkn
          cases h
          rw [hty] at hs
          cases hs
          rw [isKnownType, hk] at hkn
          cases hkn
        · split at h
          · cases h
          · rename_i hl
            split at h
            · cases h
              intro e
              rw [e] at hl
              simp at hl
            · cases h
              exact rooted_not_pin (.inr rfl) ha

theorem prepared_good {env : ConvEnv} (he : GoodEnv env) {ns : List String} (hns : ∀ s ∈ ns, GoodName s)
    {segs segs' s : List String} {args as : List Ty} {q tn : QName} {deps : List QName} (h : GoodTy (.path segs args))
    (hp : Prepared env ns segs args q segs' (.path s as tn deps)) :
    QName.ofTypePath s = some tn ∧ GoodTy (.path s as) ∧ (IsPin tn → as ≠ []) := by
  have h1 := (qualifyPath_good (env := env) hns h).2 _ hp.qualified
  obtain ⟨h2, h3⟩ := (resolvePath_good he hp.name h1).2 _ hp.resolved
  obtain ⟨q', h4, -, h5, -⟩ := goodTy_path h3
  rw [h2] at h4
  cases h4
  exact ⟨h2, h3, h5⟩

theorem fit_not_pin {s : List String} {as : List Ty} (h : PinFit (.path s as)) {a y : String} {r : List String}
    (ha : a = "std" ∨ a = "core") : s ≠ a :: "pin" :: "Pin" :: y :: r := by
  rintro rfl
  refine h ?_
  rcases ha with rfl | rfl <;> rfl

theorem ends_in_map {m : AMap QName Ty} {q : QName} {o : Option Ty} (h : EndsAt m q o) :
    ∀ t, o = some t → ∃ q', AMap.get? m q' = some t := by
  induction h with
  | notTypedef h => exact fun t e => by cases e
  | unnamed h ht => exact fun t e => by cases e; exact ⟨_, h⟩
  | last h ha hr => exact fun t e => by cases e; exact ⟨_, h.1⟩
  | hop h hr ih => exact ih

theorem prepared_not_pin {env : ConvEnv} (ht : ∀ q t, AMap.get? env.typedefs q = some t → PinFit t) {ns : List String}
    {segs segs' s : List String} {args as : List Ty} {q tn : QName} {deps : List QName}
    (hp : Prepared env ns segs args q segs' (.path s as tn deps)) :
    knownGet tn = none → ∀ a y r, (a = "std" ∨ a = "core") → s ≠ a :: "pin" :: "Pin" :: y :: r := by
  intro hk
  rcases prepared_inv hp with ⟨_, e⟩ | ⟨s, b, tn, he, _, e⟩ | ⟨mu, e, _, h⟩ | ⟨t, _, h1, h2, h⟩
  · cases e
    exact qualified_not_pin hp.qualified hp.name hk
  · cases e
    obtain ⟨q', hq'⟩ := ends_in_map he _ rfl
    exact fun a y r ha => fit_not_pin (ht _ _ hq') ha
  · cases h
  · cases h

/-- Conversion never gives something which looks like a `Pin` but does not hold a reference. -/
theorem convert_pinfit {env : ConvEnv} (he : GoodEnv env) (ht : ∀ q t, AMap.get? env.typedefs q = some t → PinFit t)
    {ns : List String} (hns : ∀ s ∈ ns, GoodName s) :
    ∀ (n : Nat) {ctx : ConvCtx} {st st' : Concretes} {ty : Ty} {a : Annotated Ty}, GoodSt st → GoodTy ty →
      convertType env ns n ctx st ty = (st', .ok a) → PinFit a.ty
  | 0, _, _, _, _, _, _, _, h => by cases h
  | n + 1, ctx, st, st', ty, a, hst, hty, h => by
    cases convertType_ok h with
    | marker hm hu hr => exact convert_pinfit he ht hns n hst (unwrapMarker_good hty hu) hr
    | lvalue h hr =>
      dsimp only
      split
      · intro hc; cases hc
      · trivial
    | rvalue h hp hr => trivial
    | ref hr => trivial
    | array hr => trivial
    | ptr hp hr => trivial
    | done hp =>
      rcases prepared_inv hp with ⟨_, e⟩ | ⟨s, b, tn, _, _, e⟩ | ⟨mu, e, _, h⟩ | ⟨t, _, h1, h2, h⟩
      · cases e
      · cases e
      · cases h; trivial
      · cases h
        dsimp only
        cases t with
        | path s a => exact absurd rfl (h1 s a)
        | _ => trivial
    | plain hp hf =>
      refine fit_finish hf ?_
      obtain ⟨hs, hg⟩ := prepared_good he hns hty hp
      exact fit_substituted hs (fun h => hg.2 h rfl) (prepared_not_pin ht hp) _
    | concrete hp hb hi hq hn ht' hf =>
      refine fit_finish hf ?_
      obtain ⟨hs, hg⟩ := prepared_good he hns hty hp
      have hsub := substitute_good hs hg.1 (fun h => h) (goodTy_path hg.1).choose_spec.2.2.2
      exact fit_typePath ((templated_good he.names hst hsub).2.2 _ (congrArg Prod.snd ht')).1.2 _
    | container hp hb hargs hk hf =>
      refine fit_finish hf ?_
      obtain ⟨hs, hg⟩ := prepared_good he hns hty hp
      obtain ⟨d, hd, hgb⟩ := container_known hb
      refine fit_substituted hs (fun h => container_not_pin hd (by rw [hgb]; exact hb) (isPin_name h))
        (fun h => by rw [hd] at h; cases h) _

/-! ### Types which can be written into the bridge -/

/-- What a reference or pointer leads to has a name, if it is a path. -/
def NamedAt (e : Ty) : Prop := ∀ s as, e = .path s as → QName.ofTypePath s ≠ none

/-- No path is empty, and paths behind references and pointers name types. -/
inductive Pathed : Ty → Prop
  | path {segs : List String} {args : List Ty} (hs : segs ≠ []) (ha : ∀ a ∈ args, Pathed a) : Pathed (.path segs args)
  | ref {m : Bool} {l : Option String} {e : Ty} (h : Pathed e) (hn : NamedAt e) : Pathed (.ref m l e)
  | ptr {m : Bool} {e : Ty} (h : Pathed e) (hn : NamedAt e) : Pathed (.ptr m e)
  | array {e : Ty} {n : String} : Pathed (.array e n)
  | other {s : String} : Pathed (.other s)

theorem good_namedAt {e : Ty} (h : GoodTy e) : NamedAt e := by
  rintro s as rfl hn
  obtain ⟨q, hq, -⟩ := goodTy_path h
  rw [hq] at hn
  cases hn

theorem good_pathed {t : Ty} (h : GoodTy t) : Pathed t := by
  induction h with
  | path hq hg hp ha ih => exact .path (fun h => by rw [h] at hq; cases hq) ih
  | ref h ih => exact .ref ih (good_namedAt h)
  | ptr h ih => exact .ptr ih (good_namedAt h)
  | array h ih => exact .array
  | other => exact .other

theorem unqualifyAll_some : ∀ {l : List Ty}, (∀ t ∈ l, unqualify t ≠ none) → unqualifyAll l ≠ none
  | [], _ => by rw [unqualifyAll]; exact fun h => by cases h
  | t :: l, h => by
    rw [unqualifyAll.eq_def]
    dsimp only
    have h1 := h t List.mem_cons_self
    have h2 := unqualifyAll_some fun x hx => h x (List.mem_cons_of_mem _ hx)
    cases ht : unqualify t with
    | none => exact absurd ht h1
    | some u =>
      cases hl : unqualifyAll l with
      | none => exact absurd hl h2
      | some k => exact fun h => by cases h

theorem unqualify_some {t : Ty} (h : Pathed t) : unqualify t ≠ none := by
  induction h with
  | @path segs args hs ha ih =>
    rw [unqualify.eq_def]
    dsimp only
    cases hl : segs.getLast? with
    | none => exact absurd (List.getLast?_eq_none_iff.1 hl) hs
    | some x =>
      dsimp only
      rw [Ne, Option.map_eq_none_iff]
      exact unqualifyAll_some ih
  | ref h hn ih =>
    rw [unqualify.eq_def]
    dsimp only
    rw [Ne, Option.map_eq_none_iff]
    exact ih
  | ptr h hn ih =>
    rw [unqualify.eq_def]
    dsimp only
    rw [Ne, Option.map_eq_none_iff]
    exact ih
  | array => rw [unqualify.eq_def]; exact fun h => by cases h
  | other => rw [unqualify.eq_def]; exact fun h => by cases h

/-- A type of a signature which can be written. -/
def RPathed : RTy → Prop
  | .plain t => Pathed t
  | _ => True

/-- A type of a signature which can be given a lifetime. -/
def RFit : RTy → Prop
  | .plain t => PinFit t
  | _ => True

theorem pinArgs_pathed {args args' : List Ty} (h : ∀ a ∈ args, Pathed a) (he : addLifetimeToPinArgs args = some args') :
    ∀ a ∈ args', Pathed a := by
  cases args with
  | nil => cases he
  | cons x l =>
    cases x with
    | ref m lt e =>
      cases he
      intro a ha
      rcases List.mem_cons.1 ha with rfl | ha
      · cases h _ List.mem_cons_self with
        | ref h1 h2 => exact .ref h1 h2
      · exact h a (List.mem_cons_of_mem _ ha)
    | _ => cases he

theorem pinned_pathed {segs : List String} {args args' : List Ty} (h : ∀ a ∈ args, Pathed a)
    (he : addLifetimeToPinned segs args = .ok args') : ∀ a ∈ args', Pathed a := by
  unfold addLifetimeToPinned at he
  split at he
  · cases he; exact h
  · split at he
    · cases he
    · split at he
      · cases he; exact h
      · split at he
        · cases he
        · split at he
          · cases he; exact h
          · split at he
            · cases he
            · split at he
              · cases he
              · split at he
                · rename_i hx; cases he; exact pinArgs_pathed h hx
                · cases he

theorem lifetime_param {t : RTy} (hp : RPathed t) (hf : RFit t) : ∃ t', addLifetimeToParam t = some t' ∧ RPathed t' := by
  cases t with
  | impl b l => exact ⟨_, rfl, trivial⟩
  | plain t =>
    cases hp with
    | @path segs args hs ha =>
      rw [addLifetimeToParam]
      cases he : addLifetimeToPinned segs args with
      | ok args' => exact ⟨_, rfl, .path hs (pinned_pathed ha he)⟩
      | wasNotPin => exact ⟨_, rfl, .path hs ha⟩
      | panic => exact absurd he hf
    | ref h hn => exact ⟨_, rfl, .ref h hn⟩
    | ptr h hn => exact ⟨_, rfl, .ptr h hn⟩
    | array => exact ⟨_, rfl, .array⟩
    | other => exact ⟨_, rfl, .other⟩

theorem lifetime_return {r : Option RTy} (hp : ∀ t, r = some t → RPathed t ∧ RFit t) :
    ∃ r', newReturnType r = some r' ∧ (∀ t, r' = some t → RPathed t) ∧ (r = none → r' = none) := by
  cases r with
  | none => exact ⟨none, rfl, fun t h => (by cases h), fun _ => rfl⟩
  | some t =>
    obtain ⟨h1, h2⟩ := hp t rfl
    cases t with
    | impl b l => exact ⟨_, rfl, fun t h => by cases h; trivial, fun h => by cases h⟩
    | plain t =>
      cases h1 with
      | @path segs args hs ha =>
        rw [newReturnType]
        cases he : addLifetimeToPinned segs args with
        | ok args' => exact ⟨_, rfl, fun t h => (by cases h; exact .path hs (pinned_pathed ha he)), fun h => by cases h⟩
        | wasNotPin => exact ⟨_, rfl, fun t h => (by cases h), fun h => by cases h⟩
        | panic => exact absurd he h2
      | ref h hn => exact ⟨_, rfl, fun t e => (by cases e; exact .ref h hn), fun h => by cases h⟩
      | ptr h hn => exact ⟨none, rfl, fun t h => (by cases h), fun h => by cases h⟩
      | array => exact ⟨none, rfl, fun t h => (by cases h), fun h => by cases h⟩
      | other => exact ⟨none, rfl, fun t h => (by cases h), fun h => by cases h⟩

theorem lifetime_params : ∀ {l : List SigParam}, (∀ p ∈ l, RPathed p.ty ∧ RFit p.ty) →
    ∃ l', addLifetimes l = some l' ∧ ∀ p ∈ l', RPathed p.ty
  | [], _ => ⟨[], rfl, by simp⟩
  | p :: l, h => by
    obtain ⟨t', h1, h2⟩ := lifetime_param (h p List.mem_cons_self).1 (h p List.mem_cons_self).2
    obtain ⟨l', h3, h4⟩ := lifetime_params fun x hx => h x (List.mem_cons_of_mem _ hx)
    refine ⟨{ p with ty := t' } :: l', ?_, ?_⟩
    · rw [addLifetimes] at h3 ⊢
      rw [List.mapM_cons, h1, h3]
      rfl
    · intro x hx
      rcases List.mem_cons.1 hx with rfl | hx
      · exact h2
      · exact h4 x hx

theorem nonPodRef_some (nonPod : List QName) : ∀ {l : List SigParam}, (∀ p ∈ l, RPathed p.ty) → hasNonPodRef nonPod l ≠ none
  | [], _ => by rw [hasNonPodRef]; exact fun h => by cases h
  | p :: l, h => by
    rw [hasNonPodRef.eq_def]
    dsimp only
    have hp := h p List.mem_cons_self
    have : isNonPodRef nonPod p ≠ none := by
      rw [isNonPodRef]
      split
      · exact fun h => by cases h
      · split
        · rename_i hty
          rw [hty] at hp
          cases hp with
          | ref h hn => rw [Ne, Option.map_eq_none_iff]; exact hn _ _ rfl
        · exact fun h => by cases h
    split
    · exact fun h => by cases h
    · exact nonPodRef_some nonPod fun x hx => h x (List.mem_cons_of_mem _ hx)
    · rename_i hn; exact absurd hn this

/-- Lifetimes can be added to the signature of a function, unless there is a result and a parameter cannot be given one. -/
theorem lifetime_some {details : List ArgumentAnalysis} {params : List SigParam} {ret : Option RTy} {nonPod : List QName}
    {rc : Option TypeConversionPolicy} (hp : ∀ p ∈ params, RPathed p.ty) (hr : ∀ t, ret = some t → RPathed t ∧ RFit t)
    (hf : ret ≠ none → ∀ p ∈ params, RFit p.ty) :
    ∃ sig, addExplicitLifetime details params ret nonPod rc = some sig ∧ (∀ p ∈ sig.params, RPathed p.ty) ∧
      ∀ t, sig.ret = some t → RPathed t := by
  have h1 := nonPodRef_some nonPod hp
  have h2 : returnsPodRef nonPod ret ≠ none := by
    rw [returnsPodRef.eq_def]
    split
    · cases (hr _ rfl).1 with
      | ref h hn => rw [Ne, Option.map_eq_none_iff]; exact hn _ _ rfl
    · exact fun h => by cases h
  rw [addExplicitLifetime]
  cases e1 : hasNonPodRef nonPod params with
  | none => exact absurd e1 h1
  | some b1 =>
    cases e2 : returnsPodRef nonPod ret with
    | none => exact absurd e2 h2
    | some b2 =>
      dsimp only
      split
      · obtain ⟨r', hr', h3, h4⟩ := lifetime_return hr
        rw [attachLifetime, hr']
        cases r' with
        | none => exact ⟨_, rfl, hp, fun t h => (hr t h).1⟩
        | some t =>
          have hne : ret ≠ none := fun h => by cases h4 h
          obtain ⟨l', h5, h6⟩ := lifetime_params fun p h => ⟨hp p h, hf hne p h⟩
          refine ⟨_, by rw [h5]; rfl, h6, ?_⟩
          intro t' ht'
          cases ht'
          exact h3 t rfl
      · exact ⟨_, rfl, hp, fun t h => (hr t h).1⟩

/-! ### The parts of a function -/

/-- Conversions which take apart a pointer. -/
def TakesPointer : RustConversionType → Prop
  | .fromPinMaybeUninitToPtr | .fromPinMoveRefToPtr | .fromTypeToPtr | .fromPlacementParamToNewReturn
  | .fromPointerToReferenceWrapper | .fromReferenceWrapperToPointer => True
  | _ => False

/-- A parameter for which code can be made. -/
structure ArgFit (pd : ArgumentAnalysis) : Prop where
  ty : Pathed pd.conversion.unwrappedType
  named : NamedAt pd.conversion.unwrappedType
  pin : PinFit pd.conversion.convertedRustType
  ptr : TakesPointer pd.conversion.rustConversion → ∃ m e, pd.conversion.unwrappedType = .ptr m e
  dest : pd.dest = true → pd.conversion.rustConversion = .none ∨
    pd.conversion.rustConversion = .fromPlacementParamToNewReturn
  place : pd.conversion.rustConversion = .fromPlacementParamToNewReturn → pd.dest = true

theorem converted_pathed {p : TypeConversionPolicy} (h : Pathed p.unwrappedType) (hn : NamedAt p.unwrappedType) :
    Pathed p.convertedRustType := by
  rw [TypeConversionPolicy.convertedRustType]
  split
  · exact .path (by simp) (by simpa using h)
  · exact .ptr h hn
  · exact h

/-- What a parameter becomes can be written, and given a lifetime unless it is the source of a move. -/
theorem rustConvert_some {p : TypeConversionPolicy} (h : Pathed p.unwrappedType) (hn : NamedAt p.unwrappedType)
    (hp : PinFit p.convertedRustType) (hptr : TakesPointer p.rustConversion → ∃ m e, p.unwrappedType = .ptr m e) (var : Rs)
    (k : Nat) :
    (∃ ty ls c u k', p.rustConvert var k = some (.param ty ls c u, k') ∧ RPathed ty ∧
      (p.rustConversion ≠ .fromPinMoveRefToPtr → RFit ty) ∧ (p.rustConversion = .none → c = var) ∧
      (p.rustConversion = .fromPointerToReferenceWrapper → ls = []) ∧
      p.rustConversion ≠ .fromPlacementParamToNewReturn) ∨
    ∃ ty k', p.rustConvert var k = some (.returnValue ty, k') ∧ p.rustConversion = .fromPlacementParamToNewReturn := by
  obtain ⟨u, cc, rc⟩ := p
  cases rc with
  | none =>
    exact .inl ⟨_, _, _, _, _, rfl, converted_pathed (p := ⟨u, cc, .none⟩) h hn, fun _ => hp, fun _ => rfl, fun h => (by cases h), fun h => by cases h⟩
  | fromStr => exact .inl ⟨_, _, _, _, _, rfl, trivial, fun _ => trivial, fun h => (by cases h), fun h => (by cases h),
      fun h => by cases h⟩
  | toBoxedUpHolder sub =>
    refine .inl ⟨_, _, _, _, _, rfl, .path (by simp) ?_, fun _ h => (by cases h), fun h => (by cases h),
      fun h => (by cases h), fun h => by cases h⟩
    intro a ha
    cases List.mem_singleton.1 ha
    exact .path (by simp) (by simp)
  | fromValueParamToPtr => exact .inl ⟨_, _, _, _, _, rfl, trivial, fun _ => trivial, fun h => (by cases h),
      fun h => (by cases h), fun h => by cases h⟩
  | fromRValueParamToPtr => exact .inl ⟨_, _, _, _, _, rfl, trivial, fun _ => trivial, fun h => (by cases h),
      fun h => (by cases h), fun h => by cases h⟩
  | fromPinMaybeUninitToPtr =>
    obtain ⟨m, e, he⟩ := hptr trivial
    change u = .ptr m e at he
    subst he
    cases h with
    | ptr h hn' =>
      refine .inl ⟨_, _, _, _, _, rfl, .path (by simp) ?_, fun _ h => (by cases h), fun h => (by cases h),
        fun h => (by cases h), fun h => by cases h⟩
      intro a ha
      cases List.mem_singleton.1 ha
      refine .ref (.path (by simp) (by simpa using h)) ?_
      intro s as e
      cases e
      decide
  | fromPinMoveRefToPtr =>
    obtain ⟨m, e, he⟩ := hptr trivial
    change u = .ptr m e at he
    subst he
    cases h with
    | ptr h hn' =>
      refine .inl ⟨_, _, _, _, _, rfl, .path (by simp) ?_, fun h => absurd rfl h, fun h => (by cases h),
        fun h => (by cases h), fun h => by cases h⟩
      intro a ha
      cases List.mem_singleton.1 ha
      refine .path (by simp) ?_
      intro a ha
      rcases List.mem_cons.1 ha with rfl | ha
      · exact .other
      · cases List.mem_singleton.1 ha
        exact h
  | fromTypeToPtr =>
    obtain ⟨m, e, he⟩ := hptr trivial
    change u = .ptr m e at he
    subst he
    cases h with
    | ptr h hn' =>
      exact .inl ⟨_, _, _, _, _, rfl, .ref h hn', fun _ => trivial, fun h => (by cases h), fun h => (by cases h),
        fun h => by cases h⟩
  | fromPlacementParamToNewReturn =>
    obtain ⟨m, e, he⟩ := hptr trivial
    change u = .ptr m e at he
    subst he
    exact .inr ⟨_, _, rfl, rfl⟩
  | fromPointerToReferenceWrapper =>
    obtain ⟨m, e, he⟩ := hptr trivial
    change u = .ptr m e at he
    subst he
    cases h with
    | ptr h hn' =>
      refine .inl ⟨_, _, _, _, _, rfl, .path (by simp) ?_, fun _ h => (by cases h), fun h => (by cases h), fun _ => rfl,
        fun h => by cases h⟩
      intro a ha
      rcases List.mem_cons.1 ha with rfl | ha
      · exact .other
      · cases List.mem_singleton.1 ha
        exact h
  | fromReferenceWrapperToPointer =>
    obtain ⟨m, e, he⟩ := hptr trivial
    change u = .ptr m e at he
    subst he
    cases h with
    | ptr h hn' =>
      refine .inl ⟨_, _, _, _, _, rfl, .path (by simp) ?_, fun _ h => (by cases h), fun h => (by cases h),
        fun h => (by cases h), fun h => by cases h⟩
      intro a ha
      cases List.mem_singleton.1 ha
      exact h

/-- What holds of the parts of a function after each parameter. -/
structure PartsFit (move : Bool) (s : PartsState) : Prop where
  params : ∀ p ∈ s.params, RPathed p.ty
  fit : move = false → ∀ p ∈ s.params, RFit p.ty
  ret : ∀ t, s.ret = some t → RPathed t ∧ RFit t
  noret : move = true → s.ret = none
  ptrArg : s.ptrArg = none ∨ ∃ x, s.ptrArg = some (.var x)

theorem partsStep_some {move av : Bool} {s : PartsState} {pd : ArgumentAnalysis} (hs : PartsFit move s) (h : ArgFit pd)
    (hm : move = false → pd.conversion.rustConversion ≠ .fromPinMoveRefToPtr)
    (hr : move = true → pd.dest = false) :
    ∃ s', partsStep av s pd = some s' ∧ PartsFit move s' ∧
      s'.params.length = s.params.length + (if pd.dest then 0 else 1) := by
  rw [partsStep]
  rcases rustConvert_some h.ty h.named h.pin h.ptr (.var (wrapperArgName av pd)) s.counter with
    ⟨ty, ls, c, u, k', e, h1, h2, h3, -, h4⟩ | ⟨ty, k', e, h1⟩
  · simp only [e]
    refine ⟨_, rfl, ⟨?_, ?_, hs.ret, hs.noret, ?_⟩, ?_⟩
    · intro p hp
      dsimp only at hp
      split at hp
      · exact hs.params p hp
      · rcases List.mem_append.1 hp with hp | hp
        · exact hs.params p hp
        · cases List.mem_singleton.1 hp; exact h1
    · intro hmv p hp
      dsimp only at hp
      split at hp
      · exact hs.fit hmv p hp
      · rcases List.mem_append.1 hp with hp | hp
        · exact hs.fit hmv p hp
        · cases List.mem_singleton.1 hp; exact h2 (hm hmv)
    · dsimp only
      split
      · rename_i hd
        rw [h3 ((h.dest hd).resolve_right h4)]
        exact .inr ⟨_, rfl⟩
      · exact hs.ptrArg
    · dsimp only
      change _ = _ + if pd.isPlacementReturnDestination = true then 0 else 1
      split
      · rfl
      · simp
  · simp only [e]
    refine ⟨_, rfl, ⟨hs.params, hs.fit, ?_, ?_, .inr ⟨_, rfl⟩⟩, ?_⟩
    · intro t ht
      cases ht
      exact ⟨trivial, trivial⟩
    · intro hmv
      have := hr hmv
      rw [h.place h1] at this
      cases this
    · rw [if_pos (h.place h1)]
      rfl

theorem partsLoop_some {move av : Bool} : ∀ {l : List ArgumentAnalysis} {s : PartsState}, PartsFit move s →
    (∀ pd ∈ l, ArgFit pd ∧ (move = false → pd.conversion.rustConversion ≠ .fromPinMoveRefToPtr) ∧
      (move = true → pd.dest = false)) →
    ∃ s', partsLoop av s l = some s' ∧ PartsFit move s' ∧
      s'.params.length = s.params.length + (l.filter fun pd => !pd.dest).length
  | [], s, hs, _ => ⟨s, rfl, hs, rfl⟩
  | pd :: l, s, hs, h => by
    obtain ⟨h1, h2, h3⟩ := h pd List.mem_cons_self
    obtain ⟨s1, e1, hs1, n1⟩ := partsStep_some (av := av) hs h1 h2 h3
    obtain ⟨s2, e2, hs2, n2⟩ := partsLoop_some (av := av) hs1 fun x hx => h x (List.mem_cons_of_mem _ hx)
    refine ⟨s2, ?_, hs2, ?_⟩
    · rw [partsLoop, e1]
      exact e2
    · rw [n2, n1, List.filter_cons]
      cases pd.dest <;> simp <;> omega

theorem reorder_some {α : Type} {ps : List α} : ∀ {o : List Nat}, (∀ k ∈ o, k < ps.length) → ∃ qs,
    reorderParams ps o = some qs ∧ ∀ q ∈ qs, q ∈ ps
  | [], _ => ⟨[], rfl, by simp⟩
  | k :: o, h => by
    obtain ⟨qs, h1, h2⟩ := reorder_some fun x hx => h x (List.mem_cons_of_mem _ hx)
    have hk := h k List.mem_cons_self
    refine ⟨ps[k] :: qs, ?_, ?_⟩
    · rw [reorderParams, h1, List.getElem?_eq_getElem hk]
    · intro q hq
      rcases List.mem_cons.1 hq with rfl | hq
      · exact List.getElem_mem hk
      · exact h2 q hq

/-- The code for the parts common to all functions can be made. -/
theorem commonParts_some {g : FnGen} {av : Bool} {order : Option (List Nat)} {ret : Option RTy} {move : Bool}
    (hargs : ∀ pd ∈ g.details, ArgFit pd ∧ (move = false → pd.conversion.rustConversion ≠ .fromPinMoveRefToPtr) ∧
      (move = true → pd.dest = false))
    (hret : ∀ t, g.retType = some t → Pathed t ∧ PinFit t) (hret' : ∀ t, ret = some t → ∃ b l, t = .impl b l)
    (hmove : move = true → ret = none ∧ g.retType = none)
    (horder : ∀ o, order = some o → ∀ k ∈ o, k < (g.details.filter fun pd => !pd.dest).length)
    (hconv : ∀ c, g.retConversion = some c → c.rustConversion = .none ∨
      ∃ m e, c = ⟨.ptr m e, .fromReferenceToPointer, .fromPointerToReferenceWrapper⟩) :
    commonParts g av order ret ≠ none := by
  have hst : PartsFit move { ret := ret.or (g.retType.map .plain) } := by
    refine ⟨by simp, by simp, ?_, ?_, .inl rfl⟩
    · intro t ht
      dsimp only at ht
      cases ret with
      | some t' =>
        cases ht
        obtain ⟨b, l, rfl⟩ := hret' _ rfl
        exact ⟨trivial, trivial⟩
      | none =>
        rw [Option.none_or] at ht
        obtain ⟨t', h1, rfl⟩ := Option.map_eq_some_iff.1 ht
        exact hret t' h1
    · intro hm
      obtain ⟨h1, h2⟩ := hmove hm
      dsimp only
      rw [h1, h2]
      rfl
  obtain ⟨s, hs, hfit, hlen⟩ := partsLoop_some (av := av) hst hargs
  have hord : ∃ ps, orderParams s.params order = some ps ∧ ∀ p ∈ ps, p ∈ s.params := by
    cases order with
    | none => exact ⟨_, rfl, fun _ h => h⟩
    | some o =>
      refine reorder_some fun k hk => ?_
      rw [hlen]
      have := horder o rfl k hk
      simpa using this
  obtain ⟨ps, hps, hmem⟩ := hord
  obtain ⟨sig, hsig, -⟩ := lifetime_some (details := g.details) (nonPod := g.nonPod) (rc := g.retConversion)
    (fun p hp => hfit.params p (hmem p hp)) hfit.ret (fun hne p hp => hfit.fit (by
      cases move with
      | false => rfl
      | true => exact absurd (hfit.noret rfl) hne) p (hmem p hp))
  have hcall : ∀ call ctx r k, convertedCall g (.maybe call (s.unsafeConversion || decide (g.needed = .justBridge))) ctx r k ≠ none := by
    intro call ctx r k
    rw [convertedCall]
    cases hc : g.retConversion with
    | none => exact fun h => by cases h
    | some c =>
      dsimp only
      rcases hconv c hc with h | ⟨m, e, rfl⟩
      · rw [if_neg (by rw [TypeConversionPolicy.rustWorkNeeded, h]; simp)]
        exact fun h => by cases h
      · rw [if_pos (by simp [TypeConversionPolicy.rustWorkNeeded])]
        cases s.unsafeConversion || decide (g.needed = .justBridge) <;> cases ctx <;> exact fun h => by cases h
  have hbody : ∀ c, bodyStmts s.locals c s.ptrArg ≠ none := by
    intro c
    rcases hfit.ptrArg with h | ⟨x, h⟩ <;> rw [h] <;> exact fun h => by cases h
  rw [commonParts, hs]
  dsimp only [Option.bind_some]
  rw [hps]
  dsimp only [Option.bind_some]
  rw [hsig]
  dsimp only [Option.bind_some]
  intro hno
  cases hc : convertedCall g (.maybe (.call g.bridgeName s.args) (s.unsafeConversion || decide (g.needed = .justBridge)))
      (decide (g.needed = .always) || g.alwaysUnsafe) sig.ret s.counter with
  | none => exact hcall _ _ _ _ hc
  | some r =>
    rw [hc] at hno
    exact hbody _ (Option.map_eq_none_iff.1 hno)

/-- A function for which code can be made. -/
structure Bindable (a : FnAnalysis) : Prop where
  args : ∀ pd ∈ a.paramDetails, ArgFit pd
  params : ∀ p ∈ a.params, ∃ n t, p = .typed n t ∧ Pathed t ∧ PinFit t
  ret : ∀ t, a.retType = some t → Pathed t ∧ PinFit t
  move : (∃ pd ∈ a.paramDetails, pd.conversion.rustConversion = .fromPinMoveRefToPtr) →
    (∃ q d, a.kind = .traitMethod .moveConstructor q d) ∧ a.retType = none ∧ ∀ pd ∈ a.paramDetails, pd.dest = false
  order : ∀ k q d, a.kind = .traitMethod k q d → ∀ o, d.parameterReordering = some o →
    ∀ k ∈ o, k < (a.paramDetails.filter fun pd => !pd.dest).length
  conv : ∀ c, a.retConversion = some c → c.rustConversion = .none ∨
    ∃ m e, c = ⟨.ptr m e, .fromReferenceToPointer, .fromPointerToReferenceWrapper⟩

theorem fnPiece_some {a : FnAnalysis} (h : Bindable a) (name : QName) (nonPod : List QName) :
    fnPiece name a nonPod ≠ none := by
  have hparts : ∀ (av : Bool) (order : Option (List Nat)) (ret : Option RTy),
      (∀ o, order = some o → ∀ k ∈ o, k < (a.paramDetails.filter fun pd => !pd.dest).length) →
      (∀ t, ret = some t → ∃ b l, t = .impl b l) →
      ((∃ q d, a.kind = .traitMethod .moveConstructor q d) → ret = none) →
      commonParts (a.gen nonPod) av order ret ≠ none := by
    intro av order ret ho hr hm
    by_cases hmv : ∃ pd ∈ a.paramDetails, pd.conversion.rustConversion = .fromPinMoveRefToPtr
    · obtain ⟨h1, h2, h3⟩ := h.move hmv
      exact commonParts_some (g := a.gen nonPod) (move := true)
        (fun pd hpd => ⟨h.args pd hpd, fun h => (by cases h), fun _ => h3 pd hpd⟩) h.ret hr (fun _ => ⟨hm h1, h2⟩) ho
        h.conv
    · exact commonParts_some (g := a.gen nonPod) (move := false)
        (fun pd hpd => ⟨h.args pd hpd, fun _ e => hmv ⟨pd, hpd, e⟩, fun h => by cases h⟩) h.ret hr (fun h => by cases h)
        ho h.conv
  rw [fnPiece]
  split
  · split
    · rename_i hk
      rw [Ne, Option.map_eq_none_iff, FnGen.constructorImpl, Option.map_eq_none_iff]
      refine hparts _ _ _ (fun o h => by cases h) (fun t ht => ?_) ?_
      · cases ht; exact ⟨_, _, rfl⟩
      · rintro ⟨q, d, hk'⟩
        rw [hk] at hk'
        cases hk'
    · rw [Ne, Option.map_eq_none_iff, FnGen.methodImpl, Option.map_eq_none_iff]
      exact hparts _ _ _ (fun o h => by cases h) (fun t ht => by cases ht) (fun _ => rfl)
    · rename_i hk
      rw [Ne, Option.map_eq_none_iff, FnGen.traitImpl, Option.map_eq_none_iff]
      exact hparts _ _ _ (h.order _ _ _ hk) (fun t ht => by cases ht) (fun _ => rfl)
    · rw [Ne, Option.map_eq_none_iff, FnGen.functionImpl, Option.map_eq_none_iff]
      exact hparts _ _ _ (fun o h => by cases h) (fun t ht => by cases ht) (fun _ => rfl)
  · split <;> exact fun h => by cases h

theorem mapM_some {α β : Type} {f : α → Option β} : ∀ {l : List α}, (∀ x ∈ l, f x ≠ none) → ∃ r, l.mapM f = some r
  | [], _ => ⟨[], rfl⟩
  | x :: l, h => by
    obtain ⟨r, hr⟩ := mapM_some fun y hy => h y (List.mem_cons_of_mem _ hy)
    cases hx : f x with
    | none => exact absurd hx (h x List.mem_cons_self)
    | some y => exact ⟨y :: r, by rw [List.mapM_cons, hx, hr]; rfl⟩

theorem runqualify_some {t : RTy} (h : RPathed t) : t.unqualify ≠ none := by
  cases t with
  | plain t =>
    rw [RTy.unqualify, Ne, Option.map_eq_none_iff]
    exact unqualify_some h
  | impl b l => exact fun h => by cases h

theorem bridgeFn_some {a : FnAnalysis} (h : Bindable a) (name : QName) (nonPod : List QName) :
    bridgeFn name a nonPod ≠ none := by
  have h1 : ∃ ps, bridgeSigParams a = some ps := by
    refine mapM_some fun p hp => ?_
    obtain ⟨n, t, rfl, -⟩ := h.params p hp
    exact fun h => by cases h
  obtain ⟨ps, hps⟩ := h1
  have h2 : ∀ p ∈ ps, RPathed p.ty ∧ RFit p.ty := by
    intro p hp
    obtain ⟨x, hx, he⟩ := (mapM_some_mem hps p).1 hp
    obtain ⟨n, t, rfl, h3, h4⟩ := h.params x hx
    cases he
    exact ⟨h3, h4⟩
  obtain ⟨sig, hsig, h3, h4⟩ := lifetime_some (details := a.paramDetails) (ret := a.retType.map .plain) (nonPod := nonPod)
    (rc := a.retConversion) (fun p hp => (h2 p hp).1) (fun t ht => by
      obtain ⟨t', h1, rfl⟩ := Option.map_eq_some_iff.1 ht
      exact h.ret t' h1) (fun _ p hp => (h2 p hp).2)
  obtain ⟨ps', hps'⟩ := mapM_some (f := SigParam.unqualify) (l := sig.params) fun p hp => by
    rw [SigParam.unqualify, Ne, Option.map_eq_none_iff]
    exact runqualify_some (h3 p hp)
  have h5 : unqualifyRet sig.ret ≠ none := by
    cases hr : sig.ret with
    | none => exact fun h => by cases h
    | some t =>
      rw [unqualifyRet, Ne, Option.map_eq_none_iff]
      exact runqualify_some (h4 t hr)
  rw [bridgeFn, hps]
  dsimp only [Option.bind_some]
  rw [hsig]
  dsimp only [Option.bind_some]
  rw [hps']
  dsimp only [Option.bind_some]
  rw [Ne, Option.map_eq_none_iff]
  exact h5

/-- The Rust code for such a function can be made. -/
theorem genFunction_some {a : FnAnalysis} (h : a.ignoreReason = none → Bindable a) (name : QName) (nonPod : List QName) :
    genFunction name a nonPod ≠ none := by
  rw [genFunction]
  split
  · exact fun h => by cases h
  · rename_i hx
    have hi : a.ignoreReason = none := by
      cases hi : a.ignoreReason with
      | none => rfl
      | some x => simp [hi] at hx
    have hb := h hi
    cases hp : fnPiece name a nonPod with
    | none => exact absurd hp (fnPiece_some hb name nonPod)
    | some piece =>
      rw [Option.bind_some, Ne, Option.map_eq_none_iff]
      exact bridgeFn_some hb name nonPod

/-! ### What the analysis gives -/

/-- How a parameter is converted suits its type. -/
theorem argConversion_fit {env : FnEnv} {m : ArgMode} {a : Annotated Ty} {self pl : Bool} {c : TypeConversionPolicy}
    (h : argConversion env m a self pl = some c) (hg : GoodTy a.ty) (hp : PinFit a.ty)
    (hf : m.force ≠ none → ∃ mu e, a.ty = .ptr mu e) :
    Pathed c.unwrappedType ∧ NamedAt c.unwrappedType ∧ PinFit c.convertedRustType ∧
      (TakesPointer c.rustConversion → ∃ m e, c.unwrappedType = .ptr m e) := by
  have hpath := good_pathed hg
  have hname := good_namedAt hg
  have noforce : (∀ mu e, a.ty ≠ .ptr mu e) → m.force = none := by
    intro h
    by_contra hne
    obtain ⟨mu, e, he⟩ := hf hne
    exact h mu e he
  rw [argConversion.eq_def] at h
  dsimp only at h
  split at h
  · obtain ⟨e, _, rfl⟩ := Option.map_eq_some_iff.1 h
    refine ⟨.path (by simp) ?_, ?_, fun h => (by cases h), fun h => h.elim⟩
    · intro a ha
      cases List.mem_singleton.1 ha
      exact .path (by simp) (by simp)
    · intro s as e
      cases e
      decide
  · split at h
    · rename_i hpl
      cases h
      obtain ⟨mu, e, he⟩ := hf (by rw [hpl.1]; exact fun h => by cases h)
      exact ⟨hpath, hname, by rw [TypeConversionPolicy.convertedRustType]; exact hp, fun _ => ⟨mu, e, he⟩⟩
    · split at h
      · rename_i segs args hty
        rw [hty] at hpath hname hp
        rw [pathConversion.eq_def] at h
        split at h
        · cases h
        · split at h
          · obtain ⟨e, he, rfl⟩ := Option.map_eq_some_iff.1 h
            rw [pinContents.eq_def] at he
            split at he
            · cases he
              cases hpath with
              | path hs ha =>
                cases ha _ List.mem_cons_self with
                | ref h1 h2 => exact ⟨.ptr h1 h2, fun _ _ h => (by cases h), trivial, fun _ => ⟨_, _, rfl⟩⟩
            · cases he
          · split at h
            · split at h
              · cases h; exact ⟨hpath, hname, hp, fun h => h.elim⟩
              · cases h; exact ⟨hpath, hname, hp, fun h => h.elim⟩
            · split at h
              · cases h; exact ⟨hpath, hname, fun h => (by cases h), fun h => h.elim⟩
              · split at h
                · cases h; exact ⟨hpath, hname, fun h => (by cases h), fun h => h.elim⟩
                · cases h; exact ⟨hpath, hname, trivial, fun h => h.elim⟩
      · rename_i mu e hty
        rw [hty] at hpath hname hp
        split at h
        · cases h; exact ⟨hpath, hname, trivial, fun _ => ⟨_, _, rfl⟩⟩
        · split at h
          · cases h
            cases hpath with
            | ptr h1 h2 => exact ⟨h1, h2, trivial, fun h => h.elim⟩
          · split at h
            · cases h; exact ⟨hpath, hname, trivial, fun _ => ⟨_, _, rfl⟩⟩
            · cases h; exact ⟨hpath, hname, trivial, fun _ => ⟨_, _, rfl⟩⟩
      · rename_i mu l e hty
        rw [hty] at hpath hname hp
        split at h
        · split at h
          · cases h
          · cases h
            cases hpath with
            | ref h1 h2 => exact ⟨.ptr h1 h2, fun _ _ h => (by cases h), trivial, fun _ => ⟨_, _, rfl⟩⟩
        · cases h
          refine ⟨hpath, hname, trivial, ?_⟩
          rw [noforce (fun mu e h => by rw [hty] at h; cases h)]
          exact fun h => h.elim
      · rename_i hn1 hn2 hn3
        cases h
        refine ⟨hpath, hname, hp, ?_⟩
        rw [noforce hn2]
        exact fun h => h.elim

/-- The typedefs which are known are types which can be given a lifetime. -/
def FitTypedefs (env : FnEnv) : Prop := ∀ q t, AMap.get? env.conv.typedefs q = some t → PinFit t

theorem boxed_fit {env : FnEnv} (he : GoodFnEnv env) (ht : FitTypedefs env) {ns : List String}
    (hns : ∀ x ∈ ns, GoodName x) {s : FnState} (hs : GoodState s) {ty : Ty} (hg : GoodTy ty) {st : Concretes}
    {a : Annotated Ty} (h : convertType env.conv ns env.fuel .outerType s.concretes ty = (st, .ok a)) :
    GoodTy a.ty ∧ PinFit a.ty := by
  refine ⟨?_, convert_pinfit he.conv ht hns _ hs.concretes hg h⟩
  have := (convert_fine he.conv hns env.fuel .outerType s.concretes ty hs.concretes hg).2.2 a (by rw [h])
  exact this.1

/-- A parameter whose type is well named, where `this` is not behind a Rust reference. -/
inductive FitInput : FnArg → Prop
  | typed {name : Ident} {ty : Ty} (hg : GoodTy ty) (hr : name = "this" → NoRef ty) : FitInput (.typed name ty)

theorem GoodInput.fit {i : FnArg} (h : GoodInput i) : FitInput i := by
  cases h with
  | typed h1 h2 h3 => exact .typed h2 fun _ => h3

/-- A parameter is converted to one for which code can be made, if what it is forced to be is a pointer. -/
theorem fnArg_fit {env : FnEnv} (he : GoodFnEnv env) (ht : FitTypedefs env) {ns : List String}
    (hns : ∀ x ∈ ns, GoodName x) {s s' : FnState} (hs : GoodState s) {diag : QName} {m : ArgMode}
    (hv : ∀ q, m.virtualThis = some q → GoodQ q ∧ ¬ IsPin q) {i : FnArg} (hi : FitInput i)
    {p : FnArg × ArgumentAnalysis} (h : convertFnArg env s ns diag m i = .done (s', .ok p))
    (hf : m.force ≠ none → m.thisAsReference = false ∧ ((∃ t, i = .typed "this" t) ∨ ∃ n mu e, i = .typed n (.ptr mu e) ∨
      ∃ args, i = .typed n (.path ["__bindgen_marker_RValueReference"] (.ptr mu e :: args)))) :
    (∃ n t, p.1 = .typed n t ∧ Pathed t ∧ PinFit t) ∧
      Pathed p.2.conversion.unwrappedType ∧ NamedAt p.2.conversion.unwrappedType ∧
      PinFit p.2.conversion.convertedRustType ∧
      (TakesPointer p.2.conversion.rustConversion → ∃ m e, p.2.conversion.unwrappedType = .ptr m e) := by
  obtain ⟨name, ty, self, into, hprep, hn⟩ := convertFnArg_ok h
  obtain ⟨st, a, conv, hc, -, hcv, rfl⟩ := convertNamedArg_ok hn
  have hty : GoodTy ty := by
    cases hi with
    | typed h2 h3 =>
      cases hprep with
      | thisRef hth hr => exact marker_good ((thisType_safe hv h2 (h3 rfl)).2 _ hth _ rfl).1
      | thisPtr hth hr => exact ((thisType_safe hv h2 (h3 rfl)).2 _ hth _ rfl).1
      | other hn hv => exact h2
  obtain ⟨h1, h2⟩ := boxed_fit he ht hns hs hty hc
  refine ⟨⟨_, _, rfl, good_pathed h1, h2⟩, argConversion_fit hcv h1 h2 fun hne => ?_⟩
  have hptr : (∃ mu e, ty = .ptr mu e) ∨
      ∃ mu e args, ty = .path ["__bindgen_marker_RValueReference"] (.ptr mu e :: args) := by
    cases hi with
    | typed g2 g3 =>
      cases hprep with
      | thisRef hth hr => rw [(hf hne).1] at hr; cases hr
      | thisPtr hth hr => exact .inl ((thisType_safe hv g2 (g3 rfl)).2 _ hth _ rfl).2.2.1
      | other hnt hv =>
        rcases (hf hne).2 with ⟨t, hi⟩ | ⟨n, mu, e, hi | ⟨args, hi⟩⟩
        · cases hi; exact absurd rfl hnt
        · cases hi; exact .inl ⟨_, _, rfl⟩
        · cases hi; exact .inr ⟨_, _, _, rfl⟩
  cases hfu : env.fuel with
  | zero => rw [hfu] at hc; cases hc
  | succ k =>
    rw [hfu] at hc
    rcases hptr with ⟨mu, e, rfl⟩ | ⟨mu, e, args, rfl⟩
    · cases convertType_ok hc with
      | ptr hp hr => exact ⟨_, _, rfl⟩
    · rw [convertType] at hc
      simp only [unwrapMarker, unwrapReference, List.cons.injEq, String.reduceEq, and_true, if_false, if_true,
        Bool.false_eq_true, List.head?_cons] at hc
      obtain ⟨s1, _, h1, hc⟩ := thenDo_ok hc
      obtain ⟨_, b, h', hc⟩ := thenDo_ok hc
      cases hc
      exact ⟨_, _, rfl⟩

/-- The parameters from the first to the last, each converted in the mode for it while what is known is good. -/
def InGoodModes (env : FnEnv) (ns : List String) (diag : QName) (mode : Nat → ArgMode) (inputs : List FnArg)
    (ps : List (FnArg × ArgumentAnalysis)) : Prop :=
  ∀ idx p, ps[idx]? = some p →
    ∃ i s1 s2, inputs[idx]? = some i ∧ GoodState s1 ∧ convertFnArg env s1 ns diag (mode idx) i = .done (s2, .ok p)

theorem fates_good {env : FnEnv} {ns : List String} {diag : QName} {m : ArgMode} {s s' : FnState} {l : List FnArg}
    {ps : List (FnArg × ArgumentAnalysis)} {es : List Err} (t : ParamFates env ns diag m s l s' ps es) (he : GoodFnEnv env)
    (hns : ∀ x ∈ ns, GoodName x) (hv : ∀ q, m.virtualThis = some q → GoodQ q ∧ ¬ IsPin q) (hs : GoodState s)
    (hl : ∀ i ∈ l, GoodInput i) (hb : es = []) : InGoodModes env ns diag (fun _ => m) l ps := by
  induction t with
  | nil => intro idx p hp; simp at hp
  | good h t ih =>
    have h1 := (fnArg_safe he hns hs hv (hl _ (by simp))).2 _ h
    have ih := ih h1.1 (fun x hx => hl x (List.mem_cons_of_mem _ hx)) hb
    intro idx p hp
    cases idx with
    | zero => cases hp; exact ⟨_, _, _, rfl, hs, h⟩
    | succ idx => exact ih idx p hp
  | bad h _ ih => cases hb

theorem reanalyze_good {env : FnEnv} {s s' : FnState} {ns : List String} {diag : QName} {inputs : List FnArg}
    {m : ArgMode} {idx : Nat} {ps ps' : List (FnArg × ArgumentAnalysis)} {mode : Nat → ArgMode}
    (h : reanalyze env s ns diag inputs m idx ps = .done (s', ps', none)) (ha : InGoodModes env ns diag mode inputs ps)
    (he : GoodFnEnv env) (hns : ∀ x ∈ ns, GoodName x) (hv : ∀ q, m.virtualThis = some q → GoodQ q ∧ ¬ IsPin q)
    (hs : GoodState s) (hl : ∀ i ∈ inputs, GoodInput i) :
    InGoodModes env ns diag (fun k => if k = idx then m else mode k) inputs ps' ∧ GoodState s' := by
  obtain ⟨i, hi, ⟨p, hp, hlt, rfl, _⟩ | ⟨x, _, _, hx⟩⟩ := reanalyze_done h
  · refine ⟨fun k q hq => ?_, ((fnArg_safe he hns hs hv (hl i (List.mem_of_getElem? hi))).2 _ hp).1⟩
    rw [List.getElem?_set] at hq
    by_cases hk : idx = k
    · subst hk
      rw [if_pos rfl, if_pos hlt] at hq
      cases hq
      dsimp only
      rw [if_pos rfl]
      exact ⟨i, _, _, hi, hs, hp⟩
    · rw [if_neg hk] at hq
      dsimp only
      rw [if_neg (fun h => hk h.symm)]
      exact ha k q hq
  · cases hx

theorem InGoodModes.congr {env : FnEnv} {ns : List String} {diag : QName} {mode mode' : Nat → ArgMode}
    {inputs : List FnArg} {ps : List (FnArg × ArgumentAnalysis)} (h : InGoodModes env ns diag mode inputs ps)
    (he : ∀ k, mode k = mode' k) : InGoodModes env ns diag mode' inputs ps := (funext he) ▸ h

/-- What the kind of a function says about how it is described. -/
theorem FnSteps.kind_facts {env : FnEnv} {s s' : FnState} {name n : ApiName} {f : FuncToConvert} {soph : Sophistication}
    {pre : Option String} {a : FnAnalysis} (t : FnSteps env s name f soph pre s' a n)
    (hf : GoodFn env.nested name f) (hpre : ∀ p, pre = some p → isIdentText p = true) :
    SameMade t.s1 t.s2 ∧
    ((∃ b q, a.kind = .method (.constructor b) q) ∨ (∃ q d, a.kind = .traitMethod .copyConstructor q d) ∨
      (∃ q d, a.kind = .traitMethod .destructor q d) → ∃ t, .typed "this" t ∈ f.inputs) ∧
    ((∃ q d, a.kind = .traitMethod .moveConstructor q d) → f.specialMember = some .moveConstructor) ∧
    ((∃ q d, a.kind = .traitMethod .copyConstructor q d) →
      f.specialMember = some .copyConstructor ∨ f.specialMember = some .destructor) := by
  have hid := (ideal_safe hf.ident hf.cpp).2 _ t.hideal
  have hself : ∀ q, selfOfParams t.ps = some q → GoodQ q.1 ∧ ∃ t, .typed "this" t ∈ f.inputs := by
    intro q hq
    have hm := List.mem_of_mem_head? hq
    obtain ⟨p, hp, he⟩ := List.mem_filterMap.1 hm
    exact fates_self t.hparams hf.synth hf.inputs p hp q he
  have hk := (kind_safe (env := env) (s := t.s1) (ns := name.name.ns) (f := f) (ideal := t.ideal) (pre := pre)
    (selfTy := match selfOfParams t.ps with
      | some q => some q.1
      | none => f.selfTy)
    (isStatic := (selfOfParams t.ps).isNone && f.selfTy.isSome) (recv := (selfOfParams t.ps).map (·.2))
    (second := secondIsRef t.ps) hid hpre (by
      intro q hq
      rcases class_cases hq with ⟨x, hx, rfl⟩ | ⟨-, hq⟩
      · exact ((hself x hx).1 _ (by simp [QName.segs])).1
      · exact hf.self q hq) (by
      intro q m hc e
      exact hf.cast q m hc (class_none e).2) hf.alloc (by
      intro hne
      cases hsp : selfOfParams t.ps with
      | some x => exact .inr (fun h => by cases h)
      | none =>
        refine .inl ?_
        rw [hsp] at hne
        simpa [Option.isSome_iff_ne_none] using hne)).2 _ t.hkind
  have hthis : ∀ q, (match selfOfParams t.ps with
      | some q => some q.1
      | none => f.selfTy) = some q → (∃ t, .typed "this" t ∈ f.inputs) ∨ f.selfTy = some q := by
    intro q hq
    rcases class_cases hq with ⟨x, hx, rfl⟩ | ⟨-, hq⟩
    · exact .inl (hself x hx).2
    · exact .inr hq
  rw [t.kind_eq]
  refine ⟨hk.made, fun h => ?_, fun ⟨q, d, h⟩ => (hk.move q d h).2.1, fun ⟨q, d, h⟩ => (hk.special q d (.inl h)).2.1⟩
  by_contra hno
  have hno' : ∀ t, FnArg.typed "this" t ∉ f.inputs := fun t ht => hno ⟨t, ht⟩
  rcases h with ⟨b, q, h⟩ | h | h
  · obtain ⟨-, h1, h3⟩ := hk.ctor b q h
    obtain ⟨g1, g2, g3⟩ := hf.static q ((hthis q h1).resolve_left hno) hno'
    rcases h3 with h3 | h3
    · exact g1 h3
    · exact h3 (g3 t.ideal t.hideal)
  · obtain ⟨q, dd, h⟩ := h
    obtain ⟨-, h3, h1⟩ := hk.special q dd (.inl h)
    obtain ⟨g1, g2, g3⟩ := hf.static q ((hthis q h1).resolve_left hno) hno'
    exact h3.elim g1 g2
  · obtain ⟨q, dd, h⟩ := h
    obtain ⟨-, h3, h1⟩ := hk.special q dd (.inr h)
    obtain ⟨g1, g2, g3⟩ := hf.static q ((hthis q h1).resolve_left hno) hno'
    exact h3.elim g1 g2

/-- Every parameter of a function without problems was converted in the mode for its place and the kind of function, with
only good names made so far. -/
theorem FnSteps.good_modes {env : FnEnv} {s s' : FnState} {name n : ApiName} {f : FuncToConvert} {soph : Sophistication}
    {pre : Option String} {a : FnAnalysis} (t : FnSteps env s name f soph pre s' a n) (hx : t.e = none)
    (hb : t.bads = []) (he : GoodFnEnv env) (hf : GoodFn env.nested name f)
    (hpre : ∀ p, pre = some p → isIdentText p = true) (hs : GoodState s) :
    InGoodModes env name.name.ns ⟨name.name.ns, t.diag⟩ (paramMode f soph a.kind) f.inputs t.ps' ∧ GoodState t.s4 := by
  have hp := fates_good t.hparams he hf.ns hf.synth hs hf.inputs hb
  have h1 := fates_steps t.hparams he hf.ns hf.synth hs hf.inputs
  have h2 := ((t.kind_facts hf hpre).1.onward h1.1).1
  have hre := t.hre
  have h4 : GoodState t.s3 → GoodState t.s4 := by
    intro h
    rw [t.hs4]
    exact ⟨h.concretes, h.inv, h.extra⟩
  rw [hx] at hre
  rw [t.kind_eq]
  generalize t.kn.kind = kind at hre
  rw [reanalyzeParams.eq_def] at hre
  dsimp only at hre
  split at hre
  · obtain ⟨r1, r2⟩ := reanalyze_good hre hp he hf.ns hf.synth h2 hf.inputs
    refine ⟨r1.congr fun k => ?_, h4 r2⟩
    cases k with
    | zero => rfl
    | succ k => rfl
  · obtain ⟨r1, r2⟩ := reanalyze_good hre hp he hf.ns hf.synth h2 hf.inputs
    refine ⟨r1.congr fun k => ?_, h4 r2⟩
    cases k with
    | zero => rfl
    | succ k => rfl
  · obtain ⟨⟨s1, ps1, e1⟩, g1, hre⟩ := PassRun.bind_done.1 hre
    have g2 : laterErr (ctorArity t.ps.length) e1 = none := by injection hre with hre; exact congrArg (·.2.2) hre
    have g3 : ps1 = t.ps' := by injection hre with hre; exact congrArg (·.2.1) hre
    have g4 : s1 = t.s3 := by injection hre with hre; exact congrArg (·.1) hre
    have := (laterErr_none.1 g2).2
    subst this g3 g4
    obtain ⟨r1, r2⟩ := reanalyze_good g1 hp he hf.ns hf.synth h2 hf.inputs
    refine ⟨r1.congr fun k => ?_, h4 r2⟩
    cases k with
    | zero => rfl
    | succ k => rfl
  · obtain ⟨⟨s1, ps1, e1⟩, g1, hre⟩ := PassRun.bind_done.1 hre
    obtain ⟨⟨s2, ps2, e2⟩, g2, hre⟩ := PassRun.bind_done.1 hre
    have g3 : laterErr (laterErr (ctorArity t.ps.length) e1) e2 = none := by
      injection hre with hre; exact congrArg (·.2.2) hre
    have g4 : ps2 = t.ps' := by injection hre with hre; exact congrArg (·.2.1) hre
    have g5 : s2 = t.s3 := by injection hre with hre; exact congrArg (·.1) hre
    obtain ⟨g6, g7⟩ := laterErr_none.1 g3
    have := (laterErr_none.1 g6).2
    subst this g7 g4 g5
    obtain ⟨r1, r2⟩ := reanalyze_good g1 hp he hf.ns hf.synth h2 hf.inputs
    obtain ⟨r3, r4⟩ := reanalyze_good g2 r1 he hf.ns hf.synth r2 hf.inputs
    refine ⟨r3.congr fun k => ?_, h4 r4⟩
    match k with
    | 0 => rfl
    | 1 => rfl
    | k + 2 => rfl
  · rename_i k1 k2 k3 k4
    injection hre with hre
    have g1 : t.ps = t.ps' := congrArg (·.2.1) hre
    have g2 : t.s2 = t.s3 := congrArg (·.1) hre
    rw [← g1]
    refine ⟨hp.congr fun k => ?_, h4 (g2 ▸ h2)⟩
    rw [paramMode.eq_def]
    dsimp only
    split
    · exact absurd rfl (k1 _ _)
    · exact absurd rfl (k2 _ _)
    · exact absurd rfl (k3 _ _)
    · exact absurd rfl (k4 _ _)
    · exact absurd rfl (k4 _ _)
    · rfl

/-- A type a function returns, and the parameter for its result. -/
structure ReturnFit (r : ReturnAnalysis) : Prop where
  rt : ∀ t, r.rt = some t → Pathed t ∧ PinFit t
  bridge : ∀ t, bridgeReturn r = some t → Pathed t ∧ PinFit t
  place : ∀ p ∈ r.placement.toList, (∃ n t, p.1 = .typed n t ∧ Pathed t ∧ PinFit t) ∧ ArgFit p.2

theorem unique_fit {t : Ty} (h : Pathed t) {c : CppConversionType} {r : RustConversionType} :
    Pathed (TypeConversionPolicy.makeUniquePtrType ⟨t, c, r⟩) ∧ PinFit (TypeConversionPolicy.makeUniquePtrType ⟨t, c, r⟩) := by
  refine ⟨.path (by simp) (by simpa using h), ?_⟩
  intro hp
  obtain ⟨a, r, h1, h2⟩ := pinned_panic hp
  exact absurd (congrArg (fun l : List String => l[1]?) h2) (by simp)

theorem return_fit {env : FnEnv} (he : GoodFnEnv env) (ht : FitTypedefs env) {ns : List String}
    (hns : ∀ x ∈ ns, GoodName x) {s s' : FnState} (hs : GoodState s) {diag : QName} {soph : Sophistication}
    {ty : Option Ty} (hty : ∀ t, ty = some t → GoodTy t) {r : ReturnAnalysis}
    (h : convertReturn env s ns diag soph ty = .done (s', .ok r)) : ReturnFit r := by
  cases convertReturn_ok h with
  | nothing => exact ⟨fun t h => (by cases h), fun t h => (by cases h), fun p hp => by cases hp⟩
  | plain h1 hp hr =>
    obtain ⟨c, hc, rfl⟩ := Option.map_eq_some_iff.1 hr
    obtain ⟨st, hb, -⟩ := convertBoxed_ok h1
    obtain ⟨g1, g2⟩ := boxed_fit he ht hns hs (hty _ rfl) hb
    refine ⟨fun t h => ?_, fun t h => ?_, fun p hp => by cases hp⟩
    · cases h; exact ⟨good_pathed g1, g2⟩
    · have hpath := good_pathed g1
      split at hc
      · rw [TypeConversionPolicy.returnReferenceIntoWrapper.eq_def] at hc
        split at hc
        · rename_i m l e hae
          cases hc
          cases h
          rw [hae] at hpath
          cases hpath with
          | ref h1 h2 => exact ⟨.ptr h1 h2, trivial⟩
        · rename_i segs args hae
          obtain ⟨e, hpin, rfl⟩ := Option.map_eq_some_iff.1 hc
          cases h
          rw [hae] at hpath
          rw [hae, pinnedMutRef.eq_def] at hpin
          split at hpin
          · rename_i heq
            split at hpin
            · cases hpin
              cases heq
              cases hpath with
              | path _ ha =>
                have ha := ha _ (List.mem_singleton.2 rfl)
                cases ha with
                | ref h1 h2 => exact ⟨.ptr h1 h2, trivial⟩
            · cases hpin
          · cases hpin
        · cases hc
      · cases hc
        cases h
        exact ⟨hpath, g2⟩
  | @value ty0 s1 _ a _ segs args q h1 hta hq hp hr =>
    obtain ⟨st, hb, -⟩ := convertBoxed_ok h1
    obtain ⟨g1, g2⟩ := boxed_fit he ht hns hs (hty _ rfl) hb
    rcases valueReturn_ok hr with ⟨p, -, -, h2, rfl⟩ | ⟨-, -, rfl⟩
    · refine ⟨fun t h => (by cases h), fun t h => (by cases h), fun p' hp' => ?_⟩
      cases List.mem_singleton.1 hp'
      have hs1 := ((boxed_state he hns hs (hty _ rfl)).2 _ h1).1
      obtain ⟨f1, f2, f3, f4, f5⟩ := fnArg_fit he ht hns hs1 (fun q h => by cases h)
        (.typed (.ptr g1) (fun h => absurd h (by decide))) h2
        (fun _ => ⟨rfl, .inr ⟨_, _, _, .inl rfl⟩⟩)
      obtain ⟨-, w1, w2⟩ := valueReturn_forResult h2
      exact ⟨f1, f2, f3, f4, f5, fun _ => .inr w2, fun _ => w1⟩
    · refine ⟨fun t h => ?_, fun t h => ?_, fun p hp => by cases hp⟩
      · cases h; exact ⟨good_pathed g1, g2⟩
      · cases h; exact unique_fit (good_pathed g1)

/-- If there is a parameter `this`, it is the first. -/
def ThisFirst (f : FuncToConvert) : Prop :=
  ∀ t, .typed "this" t ∈ f.inputs → ∃ t', f.inputs[0]? = some (.typed "this" t')

/-- A function which makes an object by copying or moving another has no result. -/
def NoCopyResult (f : FuncToConvert) (kind : FnKind) : Prop :=
  (∃ q d, kind = .traitMethod .copyConstructor q d ∨ kind = .traitMethod .moveConstructor q d) → f.output = none

/-- Code can be made for every function without problems. -/
theorem FnSteps.bindable {env : FnEnv} {s s' : FnState} {name n : ApiName} {f : FuncToConvert} {soph : Sophistication}
    {pre : Option String} {a : FnAnalysis} (t : FnSteps env s name f soph pre s' a n) (hx : a.ignoreReason = none)
    (he : GoodFnEnv env) (htd : FitTypedefs env) (hf : GoodFn env.nested name f)
    (hpre : ∀ p, pre = some p → isIdentText p = true) (hs : GoodState s) (hfirst : ThisFirst f)
    (hout : NoCopyResult f a.kind) : Bindable a := by
  obtain ⟨h1, h2, h3, hb, -, -⟩ := exposed_parts t hx
  obtain ⟨hm, hs4⟩ := t.good_modes h1 hb he hf hpre hs
  obtain ⟨hm', harity⟩ := t.modes h1 hb
  obtain ⟨hrest, -⟩ := t.rest
  obtain ⟨-, kthis, kmove, -⟩ := t.kind_facts hf hpre
  obtain ⟨hav, hord⟩ := t.trait_details hb
  have hdet := t.details_eq
  have hret : ReturnFit t.ret := by
    rcases t.hret with ⟨hr, -⟩ | ⟨e, -, hr, -⟩
    · exact return_fit he htd hf.ns hs4 hf.output hr
    · rw [hr]
      exact ⟨fun t h => (by cases h), fun t h => (by cases h), fun p hp => by cases hp⟩
  have harg : ∀ p ∈ t.ps', (∃ n t, p.1 = .typed n t ∧ Pathed t ∧ PinFit t) ∧ ArgFit p.2 ∧
      (p.2.conversion.rustConversion = .fromPinMoveRefToPtr → ∃ q d, a.kind = .traitMethod .moveConstructor q d) ∧
      (p.2.dest = true → ∃ b q, a.kind = .method (.constructor b) q) := by
    intro p hp
    obtain ⟨idx, hidx⟩ := List.getElem?_of_mem hp
    obtain ⟨i, s1, s2, hi, g1, hc⟩ := hm idx p hidx
    have hpn := param_name hc
    have hforce : (paramMode f soph a.kind idx).force ≠ none → (paramMode f soph a.kind idx).thisAsReference = false ∧
        ((∃ t, i = .typed "this" t) ∨ ∃ n mu e, i = .typed n (.ptr mu e) ∨
          ∃ args, i = .typed n (.path ["__bindgen_marker_RValueReference"] (.ptr mu e :: args))) := by
      rw [paramMode.eq_def]
      dsimp only
      split
      · exact fun h => absurd rfl h
      · rename_i q d hk
        obtain ⟨t, ht⟩ := kthis (.inr (.inr ⟨q, d, hk⟩))
        obtain ⟨t', h0⟩ := hfirst t ht
        rw [h0] at hi
        cases hi
        exact fun _ => ⟨rfl, .inl ⟨_, rfl⟩⟩
      · rename_i q d hk
        obtain ⟨t, ht⟩ := kthis (.inr (.inl ⟨q, d, hk⟩))
        obtain ⟨t', h0⟩ := hfirst t ht
        rw [h0] at hi
        cases hi
        exact fun _ => ⟨rfl, .inl ⟨_, rfl⟩⟩
      · rename_i q d hk
        obtain ⟨-, mu, mu', x, n, args, l, hl⟩ := hf.move (kmove ⟨q, d, hk⟩)
        rw [hl] at hi
        cases hi
        exact fun _ => ⟨rfl, .inl ⟨_, rfl⟩⟩
      · rename_i q d hk
        obtain ⟨-, mu, mu', x, n, args, l, hl⟩ := hf.move (kmove ⟨q, d, hk⟩)
        rw [hl] at hi
        cases hi
        exact fun _ => ⟨rfl, .inr ⟨_, _, _, .inr ⟨_, rfl⟩⟩⟩
      · exact fun h => absurd rfl h
    have hv : ∀ q, (paramMode f soph a.kind idx).virtualThis = some q → GoodQ q ∧ ¬ IsPin q := by
      rw [paramMode.eq_def]
      dsimp only
      split <;> exact hf.synth
    obtain ⟨f1, f2, f3, f4, f5⟩ := fnArg_fit he htd hf.ns g1 hv (hf.inputs i (List.mem_of_getElem? hi)).fit hc hforce
    have hdest : p.2.dest = true → (∃ b q, a.kind = .method (.constructor b) q) ∧ p.2.conversion.rustConversion = .none := by
      intro hd
      rcases hpn.1 with ⟨-, -, -, -, h⟩ | ⟨-, -, -, h⟩
      · rw [hd] at h; cases h
      · exact ⟨(h hd).1, (h hd).2.2.2⟩
    refine ⟨f1, ⟨f2, f3, f4, f5, fun hd => .inl (hdest hd).2, fun h => absurd h hpn.2.1⟩, fun hmv => ?_,
      fun hd => (hdest hd).1⟩
    obtain ⟨nm, ty, self, into, -, hn⟩ := convertFnArg_ok hc
    obtain ⟨st, an, conv, -, -, hcv, rfl⟩ := convertNamedArg_ok hn
    dsimp only [recordedArg] at hmv
    rcases argConversion_kinds hcv with h | (h | h | ⟨sub, h⟩ | h | h) | ⟨h, -⟩
    · rw [hmv] at h
      rw [paramMode.eq_def] at h
      dsimp only at h
      split at h
      all_goals first | exact ⟨_, _, by assumption⟩ | cases h
    all_goals rw [hmv] at h; cases h
  have hall : ∀ p ∈ t.ps' ++ t.ret.placement.toList, (∃ n t, p.1 = .typed n t ∧ Pathed t ∧ PinFit t) ∧ ArgFit p.2 := by
    intro p hp
    rcases List.mem_append.1 hp with hp | hp
    · exact ⟨(harg p hp).1, (harg p hp).2.1⟩
    · exact hret.place p hp
  have hplace : f.output = none → t.ret.placement = none ∧ t.ret = {} := by
    intro ho
    rcases t.hret with ⟨hr, -⟩ | ⟨e, -, hr, -⟩
    · rw [ho, convertReturn] at hr
      injection hr with hr
      injection hr with _ hr
      injection hr with hr
      exact ⟨by rw [← hr], hr.symm⟩
    · exact ⟨by rw [hr], hr⟩
  have hnodest : (∃ q d, a.kind = .traitMethod .copyConstructor q d ∨ a.kind = .traitMethod .moveConstructor q d) →
      a.paramDetails = t.ps'.map (·.2) ∧ ∀ pd ∈ a.paramDetails, pd.dest = false := by
    intro hk
    have e : a.paramDetails = t.ps'.map (·.2) := by
      rw [hdet, (hplace (hout hk)).1, Option.toList_none, List.append_nil]
    refine ⟨e, fun pd hpd => ?_⟩
    rw [e] at hpd
    obtain ⟨p, hp, rfl⟩ := List.mem_map.1 hpd
    cases hq : p.2.dest with
    | false => rfl
    | true =>
      obtain ⟨b, q, hk'⟩ := (harg p hp).2.2.2 hq
      obtain ⟨q', d, hk | hk⟩ := hk <;> rw [hk] at hk' <;> cases hk'
  obtain ⟨w, final, np, -, -, -, -, -, ha⟩ := finish_inv t.hfin
  refine ⟨fun pd hpd => ?_, fun p hp => ?_, fun ty hty => ?_, ?_, ?_, ?_⟩
  · rw [hdet] at hpd
    obtain ⟨p, hp, rfl⟩ := List.mem_map.1 hpd
    exact (hall p hp).2
  · have hpar := congrArg FnAnalysis.params ha
    dsimp only at hpar
    rw [hpar] at hp
    split at hp
    · rw [List.map_map] at hp
      obtain ⟨p', hp', rfl⟩ := List.mem_map.1 hp
      have := (hall p' hp').2
      exact ⟨_, _, rfl, converted_pathed this.ty this.named, this.pin⟩
    · obtain ⟨p', hp', rfl⟩ := List.mem_map.1 hp
      exact (hall p' hp').1
  · have hpar := congrArg FnAnalysis.retType ha
    dsimp only at hpar
    rw [hpar] at hty
    split at hty
    · exact hret.bridge ty hty
    · exact hret.rt ty hty
  · rintro ⟨pd, hpd, hmv⟩
    have hk : ∃ q d, a.kind = .traitMethod .moveConstructor q d := by
      rw [hdet] at hpd
      obtain ⟨p, hp, rfl⟩ := List.mem_map.1 hpd
      rcases List.mem_append.1 hp with hp | hp
      · exact (harg p hp).2.2.1 hmv
      · rw [((hrest p hp).1).2.2] at hmv; cases hmv
    have hk' : ∃ q d, a.kind = .traitMethod .copyConstructor q d ∨ a.kind = .traitMethod .moveConstructor q d := by
      obtain ⟨q, d, hk⟩ := hk; exact ⟨q, d, .inr hk⟩
    refine ⟨hk, ?_, (hnodest hk').2⟩
    have hpar := congrArg FnAnalysis.retType ha
    rw [hpar]
    dsimp only
    rw [(hplace (hout hk')).2]
    split <;> rfl
  · intro k q d hk o ho i hi
    have := hord o (by rw [hk]; exact ho)
    obtain ⟨rfl, hk'⟩ := this
    obtain ⟨e, hd⟩ := hnodest hk'
    have hlen : (a.paramDetails.filter fun pd => !pd.dest).length = 2 := by
      rw [List.filter_eq_self.2 (fun pd hpd => by rw [hd pd hpd]; rfl), e, List.length_map, hm'.1, harity hk']
    rw [hlen]
    simp only [List.mem_cons, List.not_mem_nil, or_false] at hi
    rcases hi with rfl | rfl <;> decide
  · intro c hc
    rcases t.ret_shape with ⟨-, h⟩ | ⟨p, ty, e, -, -, h, -⟩ | ⟨-, -, c', h, -, h'⟩
    · rw [h] at hc; cases hc
    · rw [h] at hc; cases hc; exact .inl rfl
    · rw [h] at hc; cases hc; exact h'

/-- Making the code for a function whose analysis began with good names does not panic. -/
theorem function_bindable {env : FnEnv} {s s' : FnState} {name n : ApiName} {f : FuncToConvert} {soph : Sophistication}
    {pre : Option String} {a : FnAnalysis} (h : analyzeForeignFn env s name f soph pre = .done (s', a, n))
    (he : GoodFnEnv env) (htd : FitTypedefs env) (hf : GoodFn env.nested name f)
    (hpre : ∀ p, pre = some p → isIdentText p = true) (hs : GoodState s) (hfirst : ThisFirst f)
    (hout : NoCopyResult f a.kind) (nonPod : List QName) : genFunction n.name a nonPod ≠ none := by
  obtain ⟨t⟩ := analyze_steps h
  exact genFunction_some (fun hx => t.bindable hx he htd hf hpre hs hfirst hout) n.name nonPod

/-! ### Functions with problems -/

theorem argConversion_pathed {env : FnEnv} {m : ArgMode} {a : Annotated Ty} {self pl : Bool} {c : TypeConversionPolicy}
    (h : argConversion env m a self pl = some c) (hg : GoodTy a.ty) : Pathed c.unwrappedType ∧ NamedAt c.unwrappedType := by
  have hpath := good_pathed hg
  have hname := good_namedAt hg
  rw [argConversion.eq_def] at h
  dsimp only at h
  split at h
  · obtain ⟨e, _, rfl⟩ := Option.map_eq_some_iff.1 h
    refine ⟨.path (by simp) ?_, ?_⟩
    · intro a ha
      cases List.mem_singleton.1 ha
      exact .path (by simp) (by simp)
    · intro s as e
      cases e
      decide
  · split at h
    · cases h
      exact ⟨hpath, hname⟩
    · split at h
      · rename_i segs args hty
        rw [hty] at hpath hname
        rw [pathConversion.eq_def] at h
        split at h
        · cases h
        · split at h
          · obtain ⟨e, he, rfl⟩ := Option.map_eq_some_iff.1 h
            rw [pinContents.eq_def] at he
            split at he
            · cases he
              cases hpath with
              | path hs ha =>
                cases ha _ List.mem_cons_self with
                | ref h1 h2 => exact ⟨.ptr h1 h2, fun _ _ h => (by cases h)⟩
            · cases he
          · split at h
            · split at h <;> cases h <;> exact ⟨hpath, hname⟩
            · split at h
              · cases h; exact ⟨hpath, hname⟩
              · split at h <;> cases h <;> exact ⟨hpath, hname⟩
      · rename_i mu e hty
        rw [hty] at hpath hname
        split at h
        · cases h; exact ⟨hpath, hname⟩
        · split at h
          · cases h
            cases hpath with
            | ptr h1 h2 => exact ⟨h1, h2⟩
          · split at h <;> cases h <;> exact ⟨hpath, hname⟩
      · rename_i mu l e hty
        rw [hty] at hpath hname
        split at h
        · split at h
          · cases h
          · cases h
            cases hpath with
            | ref h1 h2 => exact ⟨.ptr h1 h2, fun _ _ h => (by cases h)⟩
        · cases h
          exact ⟨hpath, hname⟩
      · cases h
        exact ⟨hpath, hname⟩

/-- A parameter whose types have names. -/
def ParamPathed (p : FnArg × ArgumentAnalysis) : Prop :=
  (∃ n t, p.1 = .typed n t ∧ Pathed t) ∧ Pathed p.2.conversion.unwrappedType ∧ NamedAt p.2.conversion.unwrappedType

theorem fnArg_pathed {env : FnEnv} (he : GoodFnEnv env) (ht : FitTypedefs env) {ns : List String}
    (hns : ∀ x ∈ ns, GoodName x) {s s' : FnState} (hs : GoodState s) {diag : QName} {m : ArgMode}
    (hv : ∀ q, m.virtualThis = some q → GoodQ q ∧ ¬ IsPin q) {i : FnArg} (hi : GoodInput i)
    {p : FnArg × ArgumentAnalysis} (h : convertFnArg env s ns diag m i = .done (s', .ok p)) : ParamPathed p := by
  obtain ⟨name, ty, self, into, hprep, hn⟩ := convertFnArg_ok h
  obtain ⟨st, a, conv, hc, -, hcv, rfl⟩ := convertNamedArg_ok hn
  have hty : GoodTy ty := by
    cases hi with
    | typed h1 h2 h3 =>
      cases hprep with
      | thisRef hth hr => exact marker_good ((thisType_safe hv h2 h3).2 _ hth _ rfl).1
      | thisPtr hth hr => exact ((thisType_safe hv h2 h3).2 _ hth _ rfl).1
      | other hn hv => exact h2
  obtain ⟨h1, h2⟩ := boxed_fit he ht hns hs hty hc
  exact ⟨⟨_, _, rfl, good_pathed h1⟩, argConversion_pathed hcv h1⟩

theorem fates_pathed {env : FnEnv} {ns : List String} {diag : QName} {m : ArgMode} {s s' : FnState} {l : List FnArg}
    {ps : List (FnArg × ArgumentAnalysis)} {es : List Err} (t : ParamFates env ns diag m s l s' ps es) (he : GoodFnEnv env)
    (ht : FitTypedefs env) (hns : ∀ x ∈ ns, GoodName x) (hv : ∀ q, m.virtualThis = some q → GoodQ q ∧ ¬ IsPin q)
    (hs : GoodState s) (hl : ∀ i ∈ l, GoodInput i) : ∀ p ∈ ps, ParamPathed p := by
  induction t with
  | nil => intro p hp; cases hp
  | good h t ih =>
    have hi := hl _ (List.mem_cons_self ..)
    have h1 := (fnArg_safe he hns hs hv hi).2 _ h
    intro p hp
    rcases List.mem_cons.1 hp with rfl | hp
    · exact fnArg_pathed he ht hns hs hv hi h
    · exact ih h1.1 (fun x hx => hl x (List.mem_cons_of_mem _ hx)) p hp
  | bad h t ih =>
    have h1 := (fnArg_safe he hns hs hv (hl _ (List.mem_cons_self ..))).2 _ h
    exact ih h1.1 (fun x hx => hl x (List.mem_cons_of_mem _ hx))

theorem reanalyze_pathed {env : FnEnv} {s s' : FnState} {ns : List String} {diag : QName} {inputs : List FnArg}
    {m : ArgMode} {idx : Nat} {ps ps' : List (FnArg × ArgumentAnalysis)} {e : Option Err}
    (h : reanalyze env s ns diag inputs m idx ps = .done (s', ps', e)) (ha : ∀ p ∈ ps, ParamPathed p)
    (he : GoodFnEnv env) (ht : FitTypedefs env) (hns : ∀ x ∈ ns, GoodName x)
    (hv : ∀ q, m.virtualThis = some q → GoodQ q ∧ ¬ IsPin q) (hs : GoodState s) (hl : ∀ i ∈ inputs, GoodInput i) :
    (∀ p ∈ ps', ParamPathed p) ∧ ps'.length = ps.length ∧ Onward s s' := by
  obtain ⟨i, hi, ⟨p, hp, hlt, rfl, _⟩ | ⟨x, hx, rfl, _⟩⟩ := reanalyze_done h
  · have hi' := hl i (List.mem_of_getElem? hi)
    refine ⟨fun q hq => ?_, List.length_set, (fnArg_safe he hns hs hv hi').2 _ hp⟩
    rcases List.mem_or_eq_of_mem_set hq with hq | rfl
    · exact ha q hq
    · exact fnArg_pathed he ht hns hs hv hi' hp
  · exact ⟨ha, rfl, (fnArg_safe he hns hs hv (hl i (List.mem_of_getElem? hi))).2 _ hx⟩

theorem reanalyzeParams_pathed {env : FnEnv} {s s' : FnState} {ns : List String} {diag : QName} {f : FuncToConvert}
    {soph : Sophistication} {kind : FnKind} {ps ps' : List (FnArg × ArgumentAnalysis)} {e : Option Err}
    (h : reanalyzeParams env s ns diag f soph kind ps = .done (s', ps', e)) (ha : ∀ p ∈ ps, ParamPathed p)
    (he : GoodFnEnv env) (ht : FitTypedefs env) (hns : ∀ x ∈ ns, GoodName x)
    (hv : ∀ q, f.synthesizedThisType = some q → GoodQ q ∧ ¬ IsPin q) (hs : GoodState s) (hl : ∀ i ∈ f.inputs, GoodInput i) :
    (∀ p ∈ ps', ParamPathed p) ∧ ps'.length = ps.length ∧ Onward s s' := by
  rw [reanalyzeParams.eq_def] at h
  dsimp only at h
  split at h
  · exact reanalyze_pathed h ha he ht hns hv hs hl
  · exact reanalyze_pathed h ha he ht hns hv hs hl
  · obtain ⟨⟨s1, ps1, e1⟩, g1, h⟩ := PassRun.bind_done.1 h
    cases h
    exact reanalyze_pathed g1 ha he ht hns hv hs hl
  · obtain ⟨⟨s1, ps1, e1⟩, g1, h⟩ := PassRun.bind_done.1 h
    obtain ⟨⟨s2, ps2, e2⟩, g2, h⟩ := PassRun.bind_done.1 h
    cases h
    obtain ⟨r1, r2, r3⟩ := reanalyze_pathed g1 ha he ht hns hv hs hl
    obtain ⟨r4, r5, r6⟩ := reanalyze_pathed g2 r1 he ht hns hv r3.1 hl
    exact ⟨r4, r5.trans r2, r3.trans r6⟩
  · cases h
    exact ⟨ha, rfl, hs, .refl⟩

/-- Parameters and a result in which every type has a name. -/
def SubFit (params : List FnArg) (ret : Option Ty) : Prop :=
  (∀ p ∈ params, ∃ n t, p = .typed n t ∧ Pathed t) ∧ ∀ t, ret = some t → Pathed t

/-- What the analysis of a function says about parameters and results has names, whatever problems there are; and there
are parameters if any could be converted. -/
theorem FnSteps.fit {env : FnEnv} {s s' : FnState} {name n : ApiName} {f : FuncToConvert} {soph : Sophistication}
    {pre : Option String} {a : FnAnalysis} (t : FnSteps env s name f soph pre s' a n)
    (he : GoodFnEnv env) (htd : FitTypedefs env) (hf : GoodFn env.nested name f)
    (hpre : ∀ p, pre = some p → isIdentText p = true) (hs : GoodState s) :
    SubFit a.params a.retType ∧ (t.ps ≠ [] → a.params ≠ []) ∧ Grows t.s1.concretes s'.concretes := by
  have h1 := fates_steps t.hparams he hf.ns hf.synth hs hf.inputs
  have h12 := (t.kind_facts hf hpre).1.onward h1.1
  have h2 := h12.1
  obtain ⟨hp, hlen, h3⟩ := reanalyzeParams_pathed t.hre (fates_pathed t.hparams he htd hf.ns hf.synth hs hf.inputs) he htd
    hf.ns hf.synth h2 hf.inputs
  have h4 : GoodState t.s4 := by
    rw [t.hs4]
    exact ⟨h3.1.concretes, h3.1.inv, h3.1.extra⟩
  have hgrow : Grows t.s1.concretes s'.concretes := by
    refine h12.2.trans (h3.2.trans ?_)
    have e : t.s4.concretes = t.s3.concretes := by rw [t.hs4]
    rw [← e]
    rcases t.hret with ⟨hr, -⟩ | ⟨e, hr, -⟩ <;> exact ((return_safe he hf.ns h4 hf.output).2 _ hr).2
  have hret : ReturnFit t.ret := by
    rcases t.hret with ⟨hr, -⟩ | ⟨e, -, hr, -⟩
    · exact return_fit he htd hf.ns h4 hf.output hr
    · rw [hr]
      exact ⟨fun t h => (by cases h), fun t h => (by cases h), fun p hp => by cases hp⟩
  have hall : ∀ p ∈ t.ps' ++ t.ret.placement.toList, ParamPathed p := by
    intro p hp'
    rcases List.mem_append.1 hp' with hp' | hp'
    · exact hp p hp'
    · obtain ⟨⟨n, ty, e, g1, -⟩, g2⟩ := hret.place p hp'
      exact ⟨⟨n, ty, e, g1⟩, g2.ty, g2.named⟩
  obtain ⟨w, final, np, -, -, -, -, -, ha⟩ := finish_inv t.hfin
  have hpar := congrArg FnAnalysis.params ha
  have hrt := congrArg FnAnalysis.retType ha
  dsimp only at hpar hrt
  refine ⟨⟨fun p hp => ?_, fun ty hty => ?_⟩, fun hne h => ?_, hgrow⟩
  · rw [hpar] at hp
    split at hp
    · rw [List.map_map] at hp
      obtain ⟨p', hp', rfl⟩ := List.mem_map.1 hp
      have := (hall p' hp').2
      exact ⟨_, _, rfl, converted_pathed this.1 this.2⟩
    · obtain ⟨p', hp', rfl⟩ := List.mem_map.1 hp
      exact (hall p' hp').1
  · rw [hrt] at hty
    split at hty
    · exact (hret.bridge ty hty).1
    · exact (hret.rt ty hty).1
  · rw [hpar] at h
    have hl : t.ps'.length = 0 := by
      have := congrArg List.length h
      split at this <;> simp at this <;> simp [this.1]
    exact hne (List.length_eq_zero_iff.1 (hlen ▸ hl))

/-! ### The same function analysed again -/

theorem this_again {env : FnEnv} {s s1 s2 s3 : FnState} {ns : List String} {diag diag' : QName} {m m' : ArgMode}
    {t : Ty} {p : FnArg × ArgumentAnalysis} (hv : m'.virtualThis = m.virtualThis)
    (hr : m'.thisAsReference = m.thisAsReference)
    (h : convertFnArg env s ns diag m (.typed "this" t) = .done (s1, .ok p))
    (hg : Grows s1.concretes s2.concretes) (e : Err) : convertFnArg env s2 ns diag' m' (.typed "this" t) ≠ .done (s3, .error e) := by
  intro hp
  have fin : ∀ {nm nm' : Ident} {ty : Ty} {self : Option (QName × ReceiverMutability)} {into into' : Bool},
      convertNamedArg env s ns m nm ty self into = .done (s1, .ok p) →
      convertNamedArg env s2 ns m' nm' ty self into' = .done (s3, .error e) → False := by
    intro nm nm' ty self into into' h1 h2
    obtain ⟨st, a, conv, hc, rfl, -⟩ := convertNamedArg_ok h1
    obtain ⟨st', hc', -⟩ := namedArg_err h2
    have := convert_again env.conv ns env.fuel .outerType s.concretes ty s2.concretes (by rw [hc]; exact hg)
      (by rw [hc]; exact fun h => by cases h)
    rw [hc, hc'] at this
    obtain ⟨-, this⟩ := this
    obtain ⟨b, this, -⟩ := this
    cases this
  have same : ∀ {ty' : Ty} {q : QName × ReceiverMutability}, thisType m.virtualThis diag t = .done (.ok (q, ty')) →
      thisType m'.virtualThis diag' t = .done (.ok (q, ty')) := by
    intro ty' q h
    rw [hv]
    rw [thisType.eq_def] at h ⊢
    split at h
    · dsimp only at h ⊢
      split at h
      · cases h; rfl
      · split at h
        · cases h
        · cases h; rfl
    · cases h
  obtain ⟨name, ty, self, into, hprep, hn⟩ := convertFnArg_ok h
  cases hprep with
  | thisRef hth hr' =>
    rw [convertFnArg, if_pos rfl, same hth] at hp
    dsimp only [PassRun.bind] at hp
    rw [if_pos (hr.trans hr')] at hp
    exact fin hn hp
  | thisPtr hth hr' =>
    rw [convertFnArg, if_pos rfl, same hth] at hp
    dsimp only [PassRun.bind] at hp
    rw [if_neg (by rw [hr, hr']; decide)] at hp
    exact fin hn hp
  | other hnt hv => exact absurd rfl hnt

theorem fates_object {env : FnEnv} {ns : List String} {diag : QName} {m : ArgMode} {s s' : FnState} {l : List FnArg}
    {ps : List (FnArg × ArgumentAnalysis)} {es : List Err} (t : ParamFates env ns diag m s l s' ps es) (he : GoodFnEnv env)
    (hns : ∀ x ∈ ns, GoodName x) (hv : ∀ q, m.virtualThis = some q → GoodQ q ∧ ¬ IsPin q) (hs : GoodState s)
    (hl : ∀ i ∈ l, GoodInput i) : ∀ p ∈ ps, ∀ q, p.2.selfType = some q → ∃ ty s1 s2, .typed "this" ty ∈ l ∧
      convertFnArg env s1 ns diag m (.typed "this" ty) = .done (s2, .ok p) ∧ Grows s2.concretes s'.concretes := by
  induction t with
  | nil => intro p hp; cases hp
  | good h t ih =>
    have hi := hl _ (List.mem_cons_self ..)
    have h1 := (fnArg_safe he hns hs hv hi).2 _ h
    have hl' := fun x hx => hl x (List.mem_cons_of_mem _ hx)
    intro p hp q hq
    rcases List.mem_cons.1 hp with rfl | hp
    · obtain ⟨name, ty, self, into, hprep, hn⟩ := convertFnArg_ok h
      obtain ⟨st, a, conv, hc, -, -, rfl⟩ := convertNamedArg_ok hn
      have hq : self = some q := hq
      cases hprep with
      | thisRef ht _ => exact ⟨_, _, _, List.mem_cons_self .., h, (fates_steps t he hns hv h1.1 hl').2⟩
      | thisPtr ht _ => exact ⟨_, _, _, List.mem_cons_self .., h, (fates_steps t he hns hv h1.1 hl').2⟩
      | other _ _ => cases hq
    · obtain ⟨ty, s1, s2, g1, g2⟩ := ih h1.1 hl' p hp q hq
      exact ⟨ty, s1, s2, List.mem_cons_of_mem _ g1, g2⟩
  | bad h t ih =>
    have h1 := (fnArg_safe he hns hs hv (hl _ (List.mem_cons_self ..))).2 _ h
    intro p hp q hq
    obtain ⟨ty, s1, s2, g1, g2⟩ := ih h1.1 (fun x hx => hl x (List.mem_cons_of_mem _ hx)) p hp q hq
    exact ⟨ty, s1, s2, List.mem_cons_of_mem _ g1, g2⟩

theorem fates_nonempty {env : FnEnv} {ns : List String} {diag : QName} {m : ArgMode} {s s' : FnState} {l : List FnArg}
    {ps : List (FnArg × ArgumentAnalysis)} {es : List Err} (t : ParamFates env ns diag m s l s' ps es) (he : GoodFnEnv env)
    (hns : ∀ x ∈ ns, GoodName x) (hv : ∀ q, m.virtualThis = some q → GoodQ q ∧ ¬ IsPin q) (hs : GoodState s)
    (hl : ∀ i ∈ l, GoodInput i) {i : FnArg} (hi : i ∈ l)
    (h : ∀ s1 s2 e, Grows s.concretes s1.concretes → convertFnArg env s1 ns diag m i ≠ .done (s2, .error e)) : ps ≠ [] := by
  induction t with
  | nil => cases hi
  | good => exact fun h => by cases h
  | bad hb t ih =>
    have h1 := (fnArg_safe he hns hs hv (hl _ (List.mem_cons_self ..))).2 _ hb
    rcases List.mem_cons.1 hi with rfl | hi
    · exact absurd hb (h _ _ _ .refl)
    · exact ih h1.1 (fun x hx => hl x (List.mem_cons_of_mem _ hx)) hi fun s1 s2 e hg => h s1 s2 e (h1.2.trans hg)

/-- A method which turned out to be virtual has parameters when it is analysed again for subclasses. -/
theorem virtual_again {env : FnEnv} {s s1 s2 s3 : FnState} {name n name' n' : ApiName} {f : FuncToConvert}
    {soph soph' : Sophistication} {pre pre' : Option String} {a a' : FnAnalysis}
    (h : analyzeForeignFn env s name f soph pre = .done (s1, a, n))
    (h' : analyzeForeignFn env s2 name' f soph' pre' = .done (s3, a', n')) (hns : name'.name.ns = name.name.ns)
    (hg : Grows s1.concretes s2.concretes) (he : GoodFnEnv env) (htd : FitTypedefs env) (hf : GoodFn env.nested name f)
    (hf' : GoodFn env.nested name' f) (hpre : ∀ p, pre = some p → isIdentText p = true) (hpre' : ∀ p, pre' = some p → isIdentText p = true) (hs : GoodState s)
    (hs2 : GoodState s2) {q : QName × ReceiverMutability} (hv : a.kind.virtualOf = some q) :
    SubFit a'.params a'.retType ∧ a'.params ≠ [] := by
  obtain ⟨t⟩ := analyze_steps h
  obtain ⟨t'⟩ := analyze_steps h'
  obtain ⟨g1, g2, -⟩ := t'.fit he htd hf' hpre' hs2
  have hgrow := (t.fit he htd hf hpre hs).2.2
  refine ⟨g1, g2 ?_⟩
  have hv' := hv
  rw [t.kind_eq] at hv'
  obtain ⟨hr, -⟩ := decideKind_receiver t.hkind hv'
  obtain ⟨x, hx, -⟩ := Option.map_eq_some_iff.1 hr
  have hm := List.mem_of_mem_head? hx
  obtain ⟨p, hp, hpe⟩ := List.mem_filterMap.1 hm
  obtain ⟨ty, r1, r2, k1, k2, k3⟩ := fates_object t.hparams he hf.ns hf.synth hs hf.inputs p hp x hpe
  refine fates_nonempty t'.hparams he hf'.ns hf'.synth hs2 hf'.inputs k1 fun w1 w2 e hw => ?_
  have k4 := k3.trans (hgrow.trans (hg.trans hw))
  rw [hns]
  exact this_again (m := { virtualThis := f.synthesizedThisType, soph := soph })
    (m' := { virtualThis := f.synthesizedThisType, soph := soph' }) rfl rfl k2 k4 e

end Verif
