import Verif.PassSpec
import Verif.TypeConvMore
import Verif.DecideKnown

/-!
# Properties of the typedef pass
-/

set_option autoImplicit false

namespace Verif

theorem templated_extra_inst {names : CppNameMap} {st st' : Concretes} {rs : Ty} {r : QName × Option NullApi}
    (h : templatedTypename names st rs = (st', .ok r)) :
    ∀ x ∈ r.2.toList, IsInstantiation x ∧ ∃ cpp, AMap.get? st cpp = none ∧ AMap.get? st' cpp = some x.name := by
  rw [templatedTypename] at h
  split at h
  · cases h
  · cases h
  · dsimp only at h
    split at h
    · cases h; simp
    · rename_i hg
      split at h
      · cases h
        intro x hx
        simp only [Option.toList_some, List.mem_singleton] at hx
        subst hx
        exact ⟨⟨_, _, _, rfl⟩, _, hg, AMap.get?_insert_self _ _ _⟩
      · cases h

theorem finishPath_extra {env : ConvEnv} {ctx : ConvCtx} {a b : Annotated Ty} (h : finishPath env ctx b = .ok a) :
    a.extra = b.extra := by
  rw [finishPath] at h
  split at h
  · split at h
    · cases h
    · split at h
      · cases h
      · split at h <;> (cases h; rfl)
  · cases h; rfl

theorem prepared_done_extra {env : ConvEnv} {ns segs : List String} {args : List Ty} {q : QName}
    {segs' : List String} {a : Annotated Ty} (h : Prepared env ns segs args q segs' (.done a)) : a.extra = [] := by
  rcases prepared_inv h with ⟨_, e⟩ | ⟨_, _, _, _, _, e⟩ | ⟨_, _, _, e⟩ | ⟨_, _, _, _, e⟩
  · cases e
  · cases e
  · cases e; rfl
  · cases e; rfl

/-- The converter adds only instantiations, each of them when it is registered. -/
theorem convert_extra_inst (env : ConvEnv) (ns : List String) (n : Nat) (ctx : ConvCtx) (st st' : Concretes)
    (ty : Ty) (a : Annotated Ty) (h : convertType env ns n ctx st ty = (st', .ok a)) :
    ∀ x ∈ a.extra, IsInstantiation x ∧ ∃ cpp, AMap.get? st cpp = none ∧ AMap.get? st' cpp = some x.name := by
  induction n generalizing ctx st st' ty a with
  | zero => cases h
  | succ n ih =>
    cases convertType_ok h with
    | marker hm h' hr => exact ih _ _ _ _ _ hr
    | lvalue h' hr => rename_i b; exact ih _ _ _ _ b hr
    | rvalue h' hp hr => rename_i b; exact ih _ _ _ _ b hr
    | ref hr => rename_i b; exact ih _ _ _ _ b hr
    | array hr => rename_i b; exact ih _ _ _ _ b hr
    | ptr hp hr => rename_i b; exact ih _ _ _ _ b hr
    | done hp => rw [prepared_done_extra hp]; simp
    | plain hp hf => rw [finishPath_extra hf]; simp
    | concrete hp hb hi hq hn ht hf => rw [finishPath_extra hf]; exact templated_extra_inst ht
    | container hp hb hargs hk hf => rw [finishPath_extra hf]; simp

/-! ### What may become of a typedef -/

/-- Why a typedef is refused, in the order in which the reasons are looked at. `st` is the table of
instantiations when the typedef is reached, and the last index the one after it. -/
inductive TypedefRefused (env : ConvEnv) (fuel : Nat) (attrs : Attrs) (st : Concretes) (n : QName)
    (i : TypedefItem) : Err → Concretes → Prop
  | generic (h : i.generics ≠ []) : TypedefRefused env fuel attrs st n i .typedefTakesGenericParameters st
  | unusedParam (hg : i.generics = []) (h : attrs.discardsTemplateParam n = true) :
      TypedefRefused env fuel attrs st n i .unusedTemplateParam st
  | notPublic (hg : i.generics = []) (h : attrs.discardsTemplateParam n = false) (hv : attrs.cppVisibility n ≠ .pub) :
      TypedefRefused env fuel attrs st n i .nonPublicNestedType st
  | target {e : Err} {st' : Concretes} (hg : i.generics = []) (h : attrs.discardsTemplateParam n = false)
      (hv : attrs.cppVisibility n = .pub)
      (hc : convertType env n.ns fuel .withinReference st i.ty = (st', .err e)) :
      TypedefRefused env fuel attrs st n i e st'
  | toItself {a : Annotated Ty} {st' : Concretes} {segs : List String} {args : List Ty} (hg : i.generics = [])
      (h : attrs.discardsTemplateParam n = false) (hv : attrs.cppVisibility n = .pub)
      (hc : convertType env n.ns fuel .withinReference st i.ty = (st', .ok a)) (ht : a.ty = .path segs args)
      (hs : QName.ofTypePath segs = some n) :
      TypedefRefused env fuel attrs st n i (.infinitelyRecursiveTypedef n) st'

/-- A typedef is kept with its target converted. -/
structure TypedefKept (env : ConvEnv) (fuel : Nat) (attrs : Attrs) (st : Concretes) (n : QName)
    (i : TypedefItem) (st' : Concretes) (a : Annotated Ty) : Prop where
  notGeneric : i.generics = []
  usedParams : attrs.discardsTemplateParam n = false
  isPublic : attrs.cppVisibility n = .pub
  converted : convertType env n.ns fuel .withinReference st i.ty = (st', .ok a)
  notItself : ∀ segs args, a.ty = .path segs args → ∃ q, QName.ofTypePath segs = some q ∧ q ≠ n

/-- What becomes of an item in the typedef pass, with the state before and after. -/
inductive TdefFate (env : ConvEnv) (fuel : Nat) (attrs : Attrs) :
    PassState → NullApi → PassState → TypedefApi → Prop
  | other {s : PassState} {a : NullApi} (h : ∀ n i o u, a ≠ .typedef n i o u) :
      TdefFate env fuel attrs s a s (a.mapAnalysis (fun _ => {}) id id)
  | use {s : PassState} {n : ApiName} {i : TypedefItem} {o : Option QName} {u : Unit} (h : i.isUse = true) :
      TdefFate env fuel attrs s (.typedef n i o u) s (.typedef n i o { target := i.ty, deps := [] })
  | refused {s : PassState} {st : Concretes} {n : ApiName} {i : TypedefItem} {o : Option QName} {u : Unit} {e : Err}
      (hu : i.isUse = false) (h : TypedefRefused env fuel attrs s.concretes n.name i e st) :
      TdefFate env fuel attrs s (.typedef n i o u) { s with concretes := st }
        (.ignoredItem n e (some (.newForItem n.name.name)))
  | kept {s : PassState} {st : Concretes} {n : ApiName} {i : TypedefItem} {o : Option QName} {u : Unit} {a : Annotated Ty}
      (hu : i.isUse = false) (h : TypedefKept env fuel attrs s.concretes n.name i st a) :
      TdefFate env fuel attrs s (.typedef n i o u)
        { concretes := st, extra := s.extra.extend a.extra }
        (.typedef n i o { target := a.ty, deps := a.deps })

theorem fatalAttrs_inv (attrs : Attrs) (n : QName) :
    (attrs.discardsTemplateParam n = true ∧
      checkForFatalAttrs attrs n = .error ⟨.unusedTemplateParam, some (.newForItem n.name)⟩) ∨
    (attrs.discardsTemplateParam n = false ∧ attrs.cppVisibility n ≠ .pub ∧
      checkForFatalAttrs attrs n = .error ⟨.nonPublicNestedType, some (.newForItem n.name)⟩) ∨
    (attrs.discardsTemplateParam n = false ∧ attrs.cppVisibility n = .pub ∧ checkForFatalAttrs attrs n = .ok ()) := by
  unfold checkForFatalAttrs
  cases h : attrs.discardsTemplateParam n with
  | true => exact .inl ⟨rfl, by simp⟩
  | false =>
    by_cases hv : attrs.cppVisibility n = .pub
    · exact .inr (.inr ⟨rfl, hv, by simp [hv]⟩)
    · exact .inr (.inl ⟨rfl, hv, by simp [hv]⟩)

/-- Each item is dealt with as `TdefFate` says. -/
theorem tdefStep_fate {env : ConvEnv} {fuel : Nat} {attrs : Attrs} {s s' : PassState} {a : NullApi}
    {r : Except ErrWithCtx (List TypedefApi)} (h : tdefStep env fuel attrs s a = (s', .done r)) :
    ∃ b, apiOrError a.nameInfo r = [b] ∧ TdefFate env fuel attrs s a s' b := by
  cases a with
  | typedef n i o u =>
    rw [tdefStep] at h
    by_cases hu : i.isUse = true
    · rw [if_pos hu] at h
      cases h
      exact ⟨_, rfl, .use hu⟩
    · rw [if_neg hu] at h
      have hu' : i.isUse = false := by simpa using hu
      unfold getReplacementTypedef at h
      by_cases hg : i.generics = []
      · rw [if_neg (by simp [hg])] at h
        rcases fatalAttrs_inv attrs n.name with ⟨hd, e⟩ | ⟨hd, hv, e⟩ | ⟨hd, hv, e⟩
        · rw [e] at h
          cases h
          exact ⟨_, rfl, .refused hu' (.unusedParam hg hd)⟩
        · rw [e] at h
          cases h
          exact ⟨_, rfl, .refused hu' (.notPublic hg hd hv)⟩
        · rw [e] at h
          dsimp only at h
          cases hc : convertType env n.name.ns fuel .withinReference s.concretes i.ty with
          | mk st r' =>
            rw [hc] at h
            cases r' with
            | panic => cases h
            | outOfFuel => cases h
            | err e =>
              cases h
              exact ⟨_, rfl, .refused hu' (.target hg hd hv hc)⟩
            | ok a =>
              simp only [CRes.toRun] at h
              have keep : (∀ segs args, a.ty = .path segs args → ∃ q, QName.ofTypePath segs = some q ∧ q ≠ n.name) →
                  TdefFate env fuel attrs s (.typedef n i o u) { concretes := st, extra := s.extra.extend a.extra }
                    (.typedef n i o { target := a.ty, deps := a.deps }) := fun hk =>
                .kept hu' ⟨hg, hd, hv, hc, hk⟩
              cases hty : a.ty with
              | path segs args =>
                rw [hty] at h
                dsimp only at h
                cases hq : QName.ofTypePath segs with
                | none => rw [hq] at h; cases h
                | some q =>
                  rw [hq] at h
                  dsimp only at h
                  by_cases hn : q = n.name
                  · rw [if_pos hn] at h
                    cases h
                    exact ⟨_, rfl, .refused hu' (.toItself hg hd hv hc hty (hn ▸ hq))⟩
                  · rw [if_neg hn] at h
                    cases h
                    have := keep (fun s1 a1 he => by
                      rw [hty] at he; cases he; exact ⟨q, hq, hn⟩)
                    rw [hty] at this
                    exact ⟨_, rfl, this⟩
              | ref mu lt e =>
                rw [hty] at h; cases h
                have := keep (fun s1 a1 he => by rw [hty] at he; cases he)
                rw [hty] at this
                exact ⟨_, rfl, this⟩
              | ptr mu e =>
                rw [hty] at h; cases h
                have := keep (fun s1 a1 he => by rw [hty] at he; cases he)
                rw [hty] at this
                exact ⟨_, rfl, this⟩
              | array e m =>
                rw [hty] at h; cases h
                have := keep (fun s1 a1 he => by rw [hty] at he; cases he)
                rw [hty] at this
                exact ⟨_, rfl, this⟩
              | other t =>
                rw [hty] at h; cases h
                have := keep (fun s1 a1 he => by rw [hty] at he; cases he)
                rw [hty] at this
                exact ⟨_, rfl, this⟩
      · rw [if_pos hg] at h
        cases h
        exact ⟨_, rfl, .refused hu' (.generic hg)⟩
  | _ => cases h; exact ⟨_, rfl, .other (by intros; intro e; cases e)⟩

theorem TdefFate.name {env : ConvEnv} {fuel : Nat} {attrs : Attrs} {s s' : PassState} {a : NullApi} {b : TypedefApi}
    (h : TdefFate env fuel attrs s a s' b) : b.name = a.name := by
  cases h with
  | other => exact Api.mapAnalysis_name _ _ _ _
  | use => rfl
  | refused => rfl
  | kept => rfl

/-- Only instantiations are added, each of them registered. -/
def ExtraOk (s : PassState) : Prop :=
  s.extra.Inv ∧ ∀ x ∈ s.extra.apis, IsInstantiation x ∨ x.IsDup

theorem extend_extraOk {v : ApiVec Unit Unit Unit} (hv : v.Inv)
    (h : ∀ x ∈ v.apis, IsInstantiation x ∨ x.IsDup) (l : List NullApi)
    (hl : ∀ x ∈ l, IsInstantiation x) :
    (v.extend l).Inv ∧ ∀ x ∈ (v.extend l).apis, IsInstantiation x ∨ x.IsDup := by
  induction l generalizing v with
  | nil => exact ⟨hv, h⟩
  | cons a l ih =>
    refine ih (ApiVec.push_inv hv a) ?_ (fun x hx => hl x (by simp [hx]))
    intro x hx
    rw [ApiVec.push_apis hv] at hx
    split at hx
    · split at hx
      · exact h x hx
      · rcases List.mem_append.1 hx with hx | hx
        · exact h x (List.mem_filter.1 hx).1
        · rw [List.mem_singleton] at hx; subst hx; exact .inr rfl
    · rcases List.mem_append.1 hx with hx | hx
      · exact h x hx
      · rw [List.mem_singleton] at hx; subst hx; exact .inl (hl x (by simp))


theorem tdefFate_extra {env : ConvEnv} {fuel : Nat} {attrs : Attrs} {s s' : PassState} {a : NullApi} {b : TypedefApi}
    (h : TdefFate env fuel attrs s a s' b) (hs : ExtraOk s) : ExtraOk s' := by
  cases h with
  | other => exact hs
  | use => exact hs
  | refused => exact hs
  | kept hu h =>
    exact extend_extraOk hs.1 hs.2 _ fun x hx => (convert_extra_inst _ _ _ _ _ _ _ _ h.converted x hx).1

theorem tdefFate_grows {env : ConvEnv} {fuel : Nat} {attrs : Attrs} {s s' : PassState} {a : NullApi} {b : TypedefApi}
    (h : TdefFate env fuel attrs s a s' b) : Grows s.concretes s'.concretes := by
  have conv : ∀ {ns st ty r}, convertType env ns fuel .withinReference s.concretes ty = (st, r) →
      Grows s.concretes st := fun {ns st ty r} hc => by
    have := convertType_grows env ns fuel .withinReference s.concretes ty
    rwa [hc] at this
  cases h with
  | other => exact .refl
  | use => exact .refl
  | refused hu h =>
    cases h with
    | generic => exact .refl
    | unusedParam => exact .refl
    | notPublic => exact .refl
    | target _ _ _ hc => exact conv hc
    | toItself _ _ _ hc => exact conv hc
  | kept hu h => exact conv h.converted

/-- The converter of the typedef pass. -/
def tdefEnv (cfg : Config) (apis : ApiVec Unit Unit Unit) : ConvEnv :=
  (ConvEnv.ofApis (fun _ => none) cfg apis.apis).1

theorem findTypedefs_none {T S F : Type} (l : List (Api T S F)) : findTypedefs (fun _ => none) l = [] := by
  unfold findTypedefs
  induction l with
  | nil => rfl
  | cons a l ih =>
    rw [List.foldl_cons]
    cases a <;> exact ih

theorem tdefEnv_typedefs (cfg : Config) (apis : ApiVec Unit Unit Unit) : (tdefEnv cfg apis).typedefs = [] :=
  findTypedefs_none _

theorem tdefEnv_cfg (cfg : Config) (apis : ApiVec Unit Unit Unit) : (tdefEnv cfg apis).cfg = cfg := rfl

/-- **C60**: the typedef pass gives one item for each item, by `TdefFate`, and adds the instantiations met
on the way. -/
theorem typedef_pass (fuel : Nat) (cfg : Config) (attrs : Attrs) (apis : ApiVec Unit Unit Unit)
    (v : ApiVec TypedefAnalysis Unit Unit) (h : convertTypedefTargets fuel cfg attrs apis = .done v) :
    ∃ s out, Thread (TdefFate (tdefEnv cfg apis) fuel attrs) { concretes := findConcretes apis.apis } apis.apis s out ∧
      (∀ x ∈ s.extra.apis, IsInstantiation x ∨ x.IsDup) ∧
      v = (ApiVec.fromIter out).extend (s.extra.apis.map (Api.mapAnalysis (fun _ => {}) id id)) := by
  unfold convertTypedefTargets at h
  dsimp only at h
  cases hr : runPass (tdefStep (ConvEnv.ofApis (fun _ => none) cfg apis.apis).1 fuel attrs)
      { concretes := (ConvEnv.ofApis (fun _ => none) cfg apis.apis).2 } apis.apis with
  | mk s r =>
    rw [hr] at h
    cases r with
    | panic => cases h
    | diverges => cases h
    | done out =>
      have ht := (runPass_done.1 hr).thread (R := TdefFate (tdefEnv cfg apis) fuel attrs)
        fun s a s' r h => tdefStep_fate h
      have hx : ExtraOk s := ht.keeps (fun s a s' b h => tdefFate_extra h) ⟨ApiVec.inv_empty, by simp⟩
      refine ⟨s, out, ht, hx.2, ?_⟩
      simp only [PassRun.bind] at h
      rw [addAnalyses_ok (fun _ => {}) id id _ hx.2] at h
      cases h
      rfl

/-- What pushing more items of the same name does to an item. -/
theorem foldl_specMerge_outcome {T S F : Type} (l : List (Api T S F)) (b : Api T S F) :
    l.foldl specMerge (some b) = some b ∨
    ∃ x y, l.foldl specMerge (some b) = some x ∧ x.IsDup ∧ y ∈ l ∧ y.isIgnored = false := by
  induction l generalizing b with
  | nil => exact .inl rfl
  | cons a l ih =>
    rw [List.foldl_cons]
    cases ha : a.isIgnored with
    | true =>
      have : specMerge (some b) a = some b := by simp [specMerge, ha]
      rw [this]
      rcases ih b with h | ⟨x, y, h1, h2, h3, h4⟩
      · exact .inl h
      · exact .inr ⟨x, y, h1, h2, by simp [h3], h4⟩
    | false =>
      obtain ⟨m, hm, hi⟩ : ∃ m, specMerge (some b) a = some m ∧ m.IsDup :=
        ⟨.ignoredItem ⟨a.name, none⟩ .duplicateItemsFoundInParsing (some (ErrorContext.newForItem a.name.name)),
          by simp [specMerge, ha], rfl⟩
      rw [hm]
      rcases ih m with h | ⟨x, y, h1, h2, h3, h4⟩
      · exact .inr ⟨m, a, h, hi, by simp, ha⟩
      · exact .inr ⟨x, a, h1, h2, by simp, ha⟩

/-- **C60**: every item is still there after the typedef pass, as `TdefFate` says, unless an instantiation
was given its name. -/
theorem typedef_pass_item (fuel : Nat) (cfg : Config) (attrs : Attrs) (apis : ApiVec Unit Unit Unit)
    (hi : apis.Inv) (v : ApiVec TypedefAnalysis Unit Unit) (h : convertTypedefTargets fuel cfg attrs apis = .done v)
    (a : NullApi) (ha : a ∈ apis.apis) :
    ∃ s s' b, TdefFate (tdefEnv cfg apis) fuel attrs s a s' b ∧
      (v.get? a.name = some b ∨ ∃ x, v.get? a.name = some x ∧ x.IsDup ∧ a.name.ns = []) := by
  obtain ⟨s, out, ht, hx, rfl⟩ := typedef_pass fuel cfg attrs apis v h
  have hnames : apis.apis.map (·.name) = out.map (·.name) :=
    ht.all2.map_eq fun a b ⟨_, _, h⟩ => h.name.symm
  have hnd : (out.map (·.name)).Nodup := hnames ▸ hi.1
  obtain ⟨b, hb, s1, s2, hf⟩ := ht.all2.left ha
  refine ⟨s1, s2, b, hf, ?_⟩
  have hget : (ApiVec.fromIter out).get? a.name = some b := by
    rw [ApiVec.get?_some_iff (fromIter_inv _), fromIter_apis _ hnd]
    exact ⟨hb, hf.name⟩
  rw [apivec_extend_spec _ (fromIter_inv _), hget]
  rcases foldl_specMerge_outcome ((s.extra.apis.map (Api.mapAnalysis (fun _ => {}) id id)).filter
      fun x => x.name = a.name) b with he | ⟨x, y, he, hxi, hy, hyi⟩
  · exact .inl he
  · refine .inr ⟨x, he, hxi, ?_⟩
    rw [List.mem_filter, List.mem_map] at hy
    obtain ⟨⟨z, hz, rfl⟩, hn⟩ := hy
    have hn' : z.name = a.name := by
      rw [Api.mapAnalysis_name] at hn; simpa using hn
    rcases hx z hz with ⟨id, rs, cpp, rfl⟩ | hzi
    · rw [← hn']; rfl
    · have hzi := hzi.ignored
      exact absurd hyi (by cases z <;> first | (intro e; cases e; done) | cases hzi)

/-- The typedefs which survive the pass. -/
theorem typedef_pass_kept (fuel : Nat) (cfg : Config) (attrs : Attrs) (apis : ApiVec Unit Unit Unit)
    (v : ApiVec TypedefAnalysis Unit Unit) (h : convertTypedefTargets fuel cfg attrs apis = .done v)
    (n : ApiName) (i : TypedefItem) (o : Option QName) (an : TypedefAnalysis) (hm : .typedef n i o an ∈ v.apis) :
    Api.typedef n i o () ∈ apis.apis ∧
    (i.isUse = true ∧ an = { target := i.ty, deps := [] } ∨
     i.isUse = false ∧ ∃ st st' a, TypedefKept (tdefEnv cfg apis) fuel attrs st n.name i st' a ∧
      Grows (findConcretes apis.apis) st ∧ an = { target := a.ty, deps := a.deps }) := by
  obtain ⟨s, out, ht, hx, rfl⟩ := typedef_pass fuel cfg attrs apis v h
  rcases mem_extend _ _ hm with hm | hm | hm
  · rcases mem_extend _ _ hm with hm | hm | hm
    · cases hm
    · obtain ⟨a, ha, s1, s2, hf, hg, -⟩ := (ht.between (Q := fun s s' => Grows s.concretes s'.concretes)
        (fun _ => .refl) (fun _ _ _ => Grows.trans) (fun s a s' b h => tdefFate_grows h)).right hm
      generalize hb : Api.typedef n i o an = b at hf
      cases hf with
      | other hne =>
        cases a with
        | typedef => exact absurd rfl (hne _ _ _ _)
        | _ => cases hb
      | use hu => cases hb; exact ⟨ha, .inl ⟨hu, rfl⟩⟩
      | refused => cases hb
      | kept hu hk => cases hb; exact ⟨ha, .inr ⟨hu, _, _, _, hk, hg, rfl⟩⟩
    · cases hm
  · rw [List.mem_map] at hm
    obtain ⟨z, hz, e⟩ := hm
    rcases hx z hz with ⟨id, rs, cpp, rfl⟩ | hzi
    · cases e
    · have hzi := hzi.ignored
      exact absurd e (by cases z <;> first | (intro e; cases e; done) | cases hzi)
  · cases hm

/-- **C56, C60**: a typedef which is kept is not its own target, and every type used by its target is built in
or among its dependencies. -/
theorem typedef_target_deps (fuel : Nat) (cfg : Config) (attrs : Attrs) (apis : ApiVec Unit Unit Unit)
    (v : ApiVec TypedefAnalysis Unit Unit) (h : convertTypedefTargets fuel cfg attrs apis = .done v)
    (n : ApiName) (i : TypedefItem) (o : Option QName) (an : TypedefAnalysis) (hm : .typedef n i o an ∈ v.apis)
    (hu : i.isUse = false) :
    (∀ segs args, an.target = .path segs args → QName.ofTypePath segs ≠ some n.name) ∧
    ∀ q, UsesName an.target q → (∃ d, knownGet q = some d) ∨ q ∈ an.deps := by
  obtain ⟨-, ⟨hu', -⟩ | ⟨-, st, st', a, hk, hg, rfl⟩⟩ := typedef_pass_kept fuel cfg attrs apis v h n i o an hm
  · rw [hu] at hu'; cases hu'
  · constructor
    · intro segs args he hq
      obtain ⟨q, h1, h2⟩ := hk.notItself segs args he
      rw [hq] at h1
      cases h1
      exact h2 rfl
    · intro q hq
      rcases convert_deps_complete _ _ _ _ _ _ _ _ hk.converted q hq with h | h | ⟨d, -, x, t, -, ht, -⟩
      · exact .inl h
      · exact .inr h
      · rw [tdefEnv_typedefs] at ht; cases ht

/-- **C59 (partial)**: the target of a typedef which is kept does not use a blocked type, other than under a
name registered for a template instantiation. -/
theorem typedef_target_not_blocked_partial (fuel : Nat) (cfg : Config) (attrs : Attrs) (apis : ApiVec Unit Unit Unit)
    (hpin : QName.toCppName ⟨["core", "pin"], "Pin"⟩ ∉ cfg.blocklist)
    (v : ApiVec TypedefAnalysis Unit Unit) (h : convertTypedefTargets fuel cfg attrs apis = .done v)
    (n : ApiName) (i : TypedefItem) (o : Option QName) (an : TypedefAnalysis) (hm : .typedef n i o an ∈ v.apis)
    (hu : i.isUse = false) (q : QName) (hq : UsesName an.target q) (hb : q.toCppName ∈ cfg.blocklist) :
    ∃ st cpp r, Grows (findConcretes apis.apis) st ∧ AMap.get? st cpp = some r ∧ r.toCppName = q.toCppName := by
  obtain ⟨-, ⟨hu', -⟩ | ⟨-, st, st', a, hk, hg, rfl⟩⟩ := typedef_pass_kept fuel cfg attrs apis v h n i o an hm
  · rw [hu] at hu'; cases hu'
  · obtain ⟨cpp, r, h1, h2⟩ := blocklist_partial (tdefEnv cfg apis) _ _ _ _ _ _ _
      (by intro x t ht; rw [tdefEnv_typedefs] at ht; cases ht) hpin hk.converted q hq hb
    exact ⟨st', cpp, r, hg.trans (convert_ok_grows hk.converted), h1, h2⟩

/-! ### The pass ends -/

theorem tdef_converges (env : ConvEnv) (ht : env.typedefs = []) (ty : Ty) (ns : List String) :
    ∃ n, ∀ k st, (convertType env ns (n + k) .withinReference st ty).2 ≠ .outOfFuel := by
  obtain ⟨n, hn⟩ := convert_terminates_partial env ns ⟨fun _ => 0, by intro q t x h; rw [ht] at h; cases h⟩ ty
  exact ⟨n, fun k st => by rw [convert_fuel_mono _ _ _ _ _ _ _ (hn _ _)]; exact hn _ _⟩

theorem tdefStep_converges (env : ConvEnv) (ht : env.typedefs = []) (attrs : Attrs) (a : NullApi) :
    ∃ n, ∀ k s, (tdefStep env (n + k) attrs s a).2 ≠ .diverges := by
  cases a with
  | typedef nm i o u =>
    obtain ⟨n, hn⟩ := tdef_converges env ht i.ty nm.name.ns
    refine ⟨n, fun k s => ?_⟩
    have := hn k s.concretes
    rw [tdefStep]
    split
    · intro h; cases h
    · have hg : (getReplacementTypedef env (n + k) attrs s nm i o).2 ≠ .diverges := by
        unfold getReplacementTypedef
        split
        · intro h; cases h
        · split
          · intro h; cases h
          · cases hc : convertType env nm.name.ns (n + k) .withinReference s.concretes i.ty with
            | mk st r =>
              rw [hc] at this
              cases r with
              | outOfFuel => exact absurd rfl this
              | panic => intro h; cases h
              | err e => intro h; cases h
              | ok a =>
                simp only [CRes.toRun]
                split
                · split
                  · intro h; cases h
                  · split <;> (intro h; cases h)
                · intro h; cases h
      revert hg
      cases getReplacementTypedef env (n + k) attrs s nm i o with
      | mk s1 r =>
        cases r with
        | panic => intro _ h; cases h
        | diverges => intro h; exact absurd rfl h
        | done r => cases r <;> (intro _ h; cases h)
  | _ => exact ⟨0, fun k s h => by cases h⟩

/-- **C57**: the typedef pass always ends. -/
theorem typedef_pass_ends (cfg : Config) (attrs : Attrs) (apis : ApiVec Unit Unit Unit) :
    ∃ n, ∀ k, convertTypedefTargets (n + k) cfg attrs apis ≠ .diverges := by
  obtain ⟨n, hn⟩ : ∃ n, ∀ k, ∀ a ∈ apis.apis, ∀ s, (tdefStep (tdefEnv cfg apis) (n + k) attrs s a).2 ≠ .diverges := by
    generalize apis.apis = l
    induction l with
    | nil => exact ⟨0, by simp⟩
    | cons a l ih =>
      obtain ⟨n, hn⟩ := ih
      obtain ⟨m, hm⟩ := tdefStep_converges (tdefEnv cfg apis) (tdefEnv_typedefs _ _) attrs a
      refine ⟨m + n, fun k b hb s => ?_⟩
      rcases List.mem_cons.1 hb with rfl | hb
      · rw [Nat.add_assoc]; exact hm _ _
      · rw [Nat.add_comm m n, Nat.add_assoc]; exact hn _ b hb s
  refine ⟨n, fun k h => ?_⟩
  unfold convertTypedefTargets at h
  dsimp only at h
  have hc := runPass_converges apis.apis (fun a ha s => hn k a ha s) { concretes := findConcretes apis.apis }
  cases hr : runPass (tdefStep (ConvEnv.ofApis (fun _ => none) cfg apis.apis).1 (n + k) attrs)
      { concretes := (ConvEnv.ofApis (fun _ => none) cfg apis.apis).2 } apis.apis with
  | mk s r =>
    have hc' : r ≠ .diverges := by
      have e : (runPass (tdefStep (tdefEnv cfg apis) (n + k) attrs) { concretes := findConcretes apis.apis } apis.apis).2 = r :=
        congrArg Prod.snd hr
      rwa [e] at hc
    rw [hr] at h
    cases r with
    | panic => cases h
    | diverges => exact hc' rfl
    | done l =>
      simp only [PassRun.bind, addAnalyses] at h
      cases hm : s.extra.apis.mapM (addAnalysis (T := TypedefAnalysis) (S := Unit) (F := Unit)) with
      | none => rw [hm] at h; cases h
      | some x => rw [hm] at h; cases h

/-- A struct, a typedef of it, a generic typedef, a typedef of itself, a typedef which is private, one of a
blocked type, and one of an instantiation. -/
def exTdefApis : ApiVec Unit Unit Unit := ApiVec.fromIter
  [.struct ⟨⟨["a"], "S"⟩, none⟩ {} (),
   .typedef ⟨⟨["a"], "T"⟩, none⟩ { ty := .path ["root", "a", "S"] [] } none (),
   .typedef ⟨⟨[], "G"⟩, none⟩ { ty := .path ["root", "a", "S"] [], generics := ["X"] } none (),
   .typedef ⟨⟨[], "I"⟩, none⟩ { ty := .path ["root", "I"] [] } none (),
   .typedef ⟨⟨[], "P"⟩, none⟩ { ty := .path ["root", "a", "S"] [] } none (),
   .typedef ⟨⟨[], "B"⟩, none⟩ { ty := .path ["root", "Secret"] [] } none (),
   .typedef ⟨⟨[], "V"⟩, none⟩ { ty := .path ["root", "Foo"] [.path ["root", "a", "S"] []] } none (),
   .typedef ⟨⟨[], "U"⟩, none⟩ { isUse := true, ty := .path ["root", "a", "S"] [] } (some ⟨["a"], "S"⟩) ()]

def exTdefAttrs : Attrs :=
  { discardsTemplateParam := fun _ => false
    cppVisibility := fun q => if q = ⟨[], "P"⟩ then .priv else .pub }

example : (match convertTypedefTargets 5 { blocklist := ["Secret"] } exTdefAttrs exTdefApis with
    | .done v => v.apis
    | _ => []) =
  [.struct ⟨⟨["a"], "S"⟩, none⟩ {} (),
   .typedef ⟨⟨["a"], "T"⟩, none⟩ { ty := .path ["root", "a", "S"] [] } none
     { target := .path ["output", "a", "S"] [], deps := [⟨["a"], "S"⟩] },
   .ignoredItem ⟨⟨[], "G"⟩, none⟩ .typedefTakesGenericParameters (some (.item "G")),
   .ignoredItem ⟨⟨[], "I"⟩, none⟩ (.infinitelyRecursiveTypedef ⟨[], "I"⟩) (some (.item "I")),
   .ignoredItem ⟨⟨[], "P"⟩, none⟩ .nonPublicNestedType (some (.item "P")),
   .ignoredItem ⟨⟨[], "B"⟩, none⟩ (.blocked ⟨[], "Secret"⟩) (some (.item "B")),
   .typedef ⟨⟨[], "V"⟩, none⟩ { ty := .path ["root", "Foo"] [.path ["root", "a", "S"] []] } none
     { target := .path ["output", "Foo_a_S_AutocxxConcrete"] [],
       deps := [⟨[], "Foo"⟩, ⟨[], "Foo_a_S_AutocxxConcrete"⟩] },
   .typedef ⟨⟨[], "U"⟩, none⟩ { isUse := true, ty := .path ["root", "a", "S"] [] } (some ⟨["a"], "S"⟩)
     { target := .path ["root", "a", "S"] [], deps := [] },
   .concreteType ⟨⟨[], "Foo_a_S_AutocxxConcrete"⟩, none⟩
     (some (.path ["output", "Foo"] [.path ["root", "a", "S"] []])) "Foo<a::S>"] := by
  decide_known

end Verif
