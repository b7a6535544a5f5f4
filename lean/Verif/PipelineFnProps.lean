import Verif.PipelineProps

/-!
# What becomes of functions in the conversion as a whole
-/

set_option autoImplicit false

namespace Verif

/-! ## What a refusal refers to -/

/-- A function which cannot be bound is reported under the name it would have had in Rust: a free function as an item,
a method as a method of its class, unless the class is generic. -/
theorem refusal_context {env : FnEnv} {s s' : FnState} {name n : ApiName} {f : FuncToConvert} {soph : Sophistication}
    {pre : Option String} {a : FnAnalysis} (h : analyzeForeignFn env s name f soph pre = .done (s', a, n))
    {e : ErrWithCtx} (he : a.ignoreReason = some e) :
    (a.kind = .function → e.ctx = some (.newForItem a.rustName)) ∧
    (∀ m q, a.kind = .method m q →
      e.ctx = some (if q ∈ env.generic then .newForItem a.rustName else .newForMethod q.name a.rustName)) := by
  obtain ⟨t⟩ := analyze_steps h
  obtain ⟨_, _, np, _, _, _, _, _, ha⟩ := finish_inv t.hfin
  have hctx : e.ctx = some t.kn.ctx := by
    rw [ha] at he
    generalize laterErr _ np = o at he
    cases o with
    | none => cases he
    | some x => cases he; rfl
  have hk := t.hkind
  have hkind : a.kind = t.kn.kind := congrArg FnAnalysis.kind ha
  have hrn : a.rustName = t.kn.rustName := congrArg FnAnalysis.rustName ha
  rw [hkind, hrn, hctx]
  revert hk
  generalize t.kn = kn
  generalize t.s2 = s2
  generalize (match selfOfParams t.ps with
      | some q => some q.1
      | none => f.selfTy) = self
  generalize ((selfOfParams t.ps).isNone && f.selfTy.isSome) = st
  generalize ((selfOfParams t.ps).map (·.2)) = recv
  generalize secondIsRef t.ps = sr
  intro hk
  unfold decideKind at hk
  split at hk
  · rename_i tr _
    cases tr <;> dsimp only [traitKind] at hk
    · split at hk
      · cases hk
      · cases hk
        exact ⟨fun e => (by cases e), fun _ _ e => by cases e⟩
    · cases hk
      exact ⟨fun e => (by cases e), fun _ _ e => by cases e⟩
    · cases hk
      exact ⟨fun e => (by cases e), fun _ _ e => by cases e⟩
  · split at hk
    · rename_i q _
      have copy : ∀ {nested ideal : String} {mv : Bool}, PassRun.done (copyMoveKind env t.s1 name.name.ns q nested ideal pre mv sr) =
          .done (s2, kn) → (kn.kind = .function → some kn.ctx = some (.newForItem kn.rustName)) ∧
          ∀ m q', kn.kind = .method m q' →
            some kn.ctx = some (if q' ∈ env.generic then .newForItem kn.rustName else .newForMethod q'.name kn.rustName) := by
        intro nested ideal mv hk
        unfold copyMoveKind at hk
        dsimp only at hk
        split at hk
        · cases hk
          exact ⟨fun e => (by cases e), fun _ _ e => by cases e⟩
        · split at hk
          · cases hk
            exact ⟨fun e => (by cases e), fun _ _ e => by cases e⟩
          · cases hk
            exact ⟨fun e => (by cases e), fun _ _ e => by cases e; rfl⟩
      dsimp only at hk
      split at hk
      · exact copy hk
      · exact copy hk
      · cases hk
        exact ⟨fun e => (by cases e), fun _ _ e => by cases e⟩
      · unfold plainMethodKind at hk
        split at hk
        · cases hk
          exact ⟨fun e => (by cases e), fun _ _ e => by cases e; rfl⟩
        · split at hk
          · cases hk
            exact ⟨fun e => (by cases e), fun _ _ e => by cases e; rfl⟩
          · split at hk
            · cases hk
            · cases hk
              exact ⟨fun e => (by cases e), fun _ _ e => by cases e; rfl⟩
    · cases hk
      exact ⟨fun _ => rfl, fun _ _ e => by cases e⟩

/-! ## The end of a function -/

/-- What a function can end as: a binding, or a marker. -/
inductive FnEnd (n : ApiName) (f : FuncToConvert) (a : FnAnalysis) : FnApi → Prop
  /-- It can be bound. -/
  | bound (h : a.ignoreReason = none) : FnEnd n f a (.function n f a)
  /-- The analysis refused it. -/
  | refused {e : ErrWithCtx} (h : a.ignoreReason = some e) : FnEnd n f a (.ignoredItem n e.err e.ctx)
  /-- Its name is not acceptable or taken by another item. -/
  | badName (e : Err) (h : a.ignoreReason = none) : FnEnd n f a (.ignoredItem n e (some (.newForItem n.name.name)))
  /-- It depends on something which cannot be bound. -/
  | badDep (e : Err) (h : a.ignoreReason = none) (ctx : Option ErrorContext) (hc : MarkerContext (.function n f a) ctx) :
      FnEnd n f a (.ignoredItem n e ctx)

section
variable {fuel : Nat} {hash : Config → Nat} {sigOf : RustSig → RustFnSig} {policy : UnsafePolicy} {cfg : Config}
  {force : Bool} {cb : Callbacks} {items : List BindgenItem} {out : FnApiVec}

namespace ConvertStages
variable (p : ConvertStages fuel hash sigOf policy cfg force cb items out)
include p

/-- Every analysed function is followed to the end of the analyses, except constructors of abstract classes. -/
theorem function_end {n : ApiName} {f : FuncToConvert} {a : FnAnalysis} (hx : .function n f a ∈ p.fns.apis)
    (hc : ∀ cls, IsAbstract p.fns.apis cls → ¬ IsConstructorOf (.function n f a) cls) :
    ∃ z ∈ p.filtered.apis, z.name = n.name ∧ FnEnd n f a z := by
  obtain ⟨-, keep, hk, h1⟩ := p.marked_spec
  have hkx : keep (.function n f a) = true := by
    cases h : keep (.function n f a) with
    | true => rfl
    | false =>
      obtain ⟨cls, h1, h2⟩ := (hk _).1 h
      exact absurd h2 (hc cls h1)
  obtain ⟨x1, hx1, fa⟩ := h1.left (List.mem_filter.2 ⟨hx, hkx⟩)
  have e1 : x1 = .function n f a := by
    cases fa with
    | unchanged => rfl
  subst e1
  obtain ⟨b, hb, fb⟩ := (constructor_deps p.marked p.marked_spec.1).left hx1
  have e2 : b = .function n f a := by
    cases fb with
    | other => rfl
  subst e2
  obtain ⟨c, hc', fc⟩ := (discard_ignored_functions_spec _ p.decorated_inv).left hb
  obtain ⟨d, hd, fd⟩ := (check_names_fates _ _ p.discarded_inv p.hnamed).left hc'
  obtain ⟨e, he, fe⟩ := (remove_ignored_fates p.named p.named_inv).left hd
  refine ⟨e, he, ?_⟩
  cases fc with
  | @discarded _ _ _ er h =>
    have hd' : d = .ignoredItem n er.err er.ctx := by
      cases fd with
      | kept => rfl
      | badIdent _ _ hs => cases hs
      | collides _ _ _ hb => cases hb
    subst hd'
    cases fe with
    | kept => exact ⟨rfl, .refused h⟩
    | ignoredDep qs hq h =>
      cases qs with
      | nil => exact absurd rfl hq
      | cons q qs =>
        cases (h q (by simp)).1
    | unknownDep _ hd => cases hd
  | kept h =>
    cases fd with
    | kept =>
      cases fe with
      | kept => exact ⟨rfl, .bound h⟩
      | ignoredDep _ _ _ ctx hc => exact ⟨rfl, .badDep _ h ctx hc⟩
      | unknownDep _ _ _ _ _ ctx hc => exact ⟨rfl, .badDep _ h ctx hc⟩
    | badIdent =>
      cases fe with
      | kept => exact ⟨rfl, .badName _ h⟩
      | ignoredDep qs hq h =>
        cases qs with
        | nil => exact absurd rfl hq
        | cons q qs =>
          cases (h q (by simp)).1
      | unknownDep _ hd => cases hd
    | collides =>
      cases fe with
      | kept => exact ⟨rfl, .badName _ h⟩
      | ignoredDep qs hq h =>
        cases qs with
        | nil => exact absurd rfl hq
        | cons q qs =>
          cases (h q (by simp)).1
      | unknownDep _ hd => cases hd
  | other h => exact absurd rfl (h _ _ _)

/-- An item at the end of the analyses under a name on the allowlist is delivered, or a marker in its place because
a C type has its name. -/
theorem listed_delivered {z : FnApi} (hz : z ∈ p.filtered.apis)
    (hl : cfg.isOnAllowlist hash (FnApi.nameForAllowlist z).toCppName = some true) :
    z ∈ out.apis ∨ ApiVec.duplicateMarker z.name ∈ out.apis := by
  have hzc : z ∈ p.collected.apis := (p.collected_iff z).2 ⟨hz, .root z hz hl⟩
  have hget := (ApiVec.get?_some_iff p.collected_inv z.name z).2 ⟨hzc, rfl⟩
  have hout := appendCtypes_get p.collected p.collected_inv z.name
  rw [hget] at hout
  have hout := (congrArg (fun v => ApiVec.get? v z.name) p.hout).trans hout
  have : out.get? z.name = some z ∨ out.get? z.name = some (ApiVec.duplicateMarker z.name) := by
    rw [hout]
    split
    · split
      · exact .inr rfl
      · exact .inl rfl
    · exact .inl rfl
  rcases this with h | h
  · exact .inl ((ApiVec.get?_some_iff p.out_inv _ _).1 h).1
  · exact .inr ((ApiVec.get?_some_iff p.out_inv _ _).1 h).1

/-- What is delivered under a name comes from the item which has this name at the end of the analyses, which is
reachable; else it is a C type. -/
theorem delivered_reachable {b : FnApi} (hb : b ∈ out.apis) :
    (∃ n q, b = .ctype n q) ∨ ∃ z ∈ p.filtered.apis, z.name = b.name ∧ (b = z ∨ b = ApiVec.duplicateMarker z.name) ∧
      Reachable hash cfg p.filtered.apis z.name := by
  have hget := (ApiVec.get?_some_iff p.out_inv b.name b).2 ⟨hb, rfl⟩
  have hout := (congrArg (fun v => ApiVec.get? v b.name) p.hout).trans (appendCtypes_get p.collected p.collected_inv b.name)
  rw [hget] at hout
  have old : ∀ z, p.collected.get? b.name = some z → z ∈ p.filtered.apis ∧ z.name = b.name ∧
      Reachable hash cfg p.filtered.apis z.name := by
    intro z hz
    obtain ⟨h1, h2⟩ := (ApiVec.get?_some_iff p.collected_inv _ _).1 hz
    obtain ⟨h3, h4⟩ := (p.collected_iff z).1 h1
    exact ⟨h3, h2, h4⟩
  have plain : some b = p.collected.get? b.name → ∃ z ∈ p.filtered.apis, z.name = b.name ∧
      (b = z ∨ b = ApiVec.duplicateMarker z.name) ∧ Reachable hash cfg p.filtered.apis z.name := by
    intro h
    obtain ⟨h1, h2, h3⟩ := old b h.symm
    exact ⟨b, h1, rfl, .inl rfl, h3⟩
  split at hout
  · split at hout
    · cases hz : p.collected.get? b.name with
      | none =>
        rw [hz] at hout
        exact .inl ⟨_, _, Option.some.inj hout⟩
      | some z =>
        obtain ⟨h1, h2, h3⟩ := old z hz
        rw [hz] at hout
        refine .inr ⟨z, h1, h2, .inr ?_, h3⟩
        rw [h2]
        exact Option.some.inj hout
    · exact .inr (plain hout)
  · exact .inr (plain hout)

/-- Every function in the list is one the analysis was asked about. -/
theorem function_run {n : ApiName} {f : FuncToConvert} {a : FnAnalysis} (hx : .function n f a ∈ p.fns.apis) :
    ∃ env s s' name soph pre, analyzeForeignFn env s name f soph pre = .done (s', a, n) := by
  obtain ⟨q⟩ := p.fn_stages
  have ho := items_from q hx
  generalize hg : (Api.function n f a : FnPre2Api) = g at ho
  cases ho with
  | @kept z hz hf =>
    cases z with
    | function => cases hf
    | _ => cases hg
  | @fn r hr =>
    cases hg
    exact ⟨_, _, _, _, _, _, q.trace.ok r hr⟩
  | override_ => cases hg
  | trait_ => cases hg
  | inst => cases hg
  | marker h => subst hg; cases h

omit p in
theorem free_not_constructor {n : ApiName} {f : FuncToConvert} {a : FnAnalysis} (hk : a.kind = .function) (cls : QName) :
    ¬ IsConstructorOf (.function n f a : FnPre2Api) cls := by
  rintro ⟨_, _, _, e, h⟩
  cases e
  rw [hk] at h
  rcases h with ⟨_, h⟩ | ⟨_, _, h, -⟩ <;> cases h

/-- **C04 (free functions)**: a free function the user asked for, and which has the same name in C++, in Rust and in
the bridge, is delivered or reported. -/
theorem free_function_delivered_partial {n : ApiName} {f : FuncToConvert} {a : FnAnalysis}
    (hx : .function n f a ∈ p.fns.apis) (hk : a.kind = .function) (hr : a.rustName = f.ident)
    (hb : a.cxxbridgeName = f.ident) (hl : cfg.isOnAllowlist hash (QName.toCppName ⟨n.name.ns, f.ident⟩) = some true) :
    ∃ b ∈ out.apis, b = .function n f a ∨ (b.name = n.name ∧ b.GivenUp) := by
  obtain ⟨env, s, s', name, soph, pre, hrun⟩ := p.function_run hx
  have hn : n.name.name = f.ident := by rw [(name_kept hrun).1]; exact hb
  have hnn : n.name = ⟨n.name.ns, f.ident⟩ := by rw [← hn]
  obtain ⟨z, hz, hzn, he⟩ := p.function_end hx fun cls _ => free_not_constructor hk cls
  have hz' : z = .function n f a ∨ z.GivenUp := by
    cases he with
    | bound => exact .inl rfl
    | refused h =>
      rw [(refusal_context hrun h).1 hk, hr, ← hn]
      exact .inr .marker
    | badName => exact .inr .marker
    | badDep e h ctx hc =>
      cases hc with
      | traitMethod h => rw [hk] at h; cases h
      | method h => rw [hk] at h; cases h
      | freeFunction => exact .inr .marker
      | item h => exact absurd rfl (h n f a)
  have hlist : cfg.isOnAllowlist hash (FnApi.nameForAllowlist z).toCppName = some true := by
    rcases hz' with rfl | h
    · simp only [FnApi.nameForAllowlist, hk]
      exact hl
    · rw [allowlist_name_own h, hzn, hnn]
      exact hl
  rcases p.listed_delivered hz hlist with h | h
  · rcases hz' with rfl | hg
    · exact ⟨_, h, .inl rfl⟩
    · exact ⟨z, h, .inr ⟨hzn, hg⟩⟩
  · exact ⟨_, h, .inr ⟨hzn, .marker⟩⟩

/-- An item which is not on the allowlist, and which nothing depends on, leaves no trace. -/
theorem vanishes {z : FnApi} (hz : z ∈ p.filtered.apis)
    (hl : cfg.isOnAllowlist hash (FnApi.nameForAllowlist z).toCppName ≠ some true)
    (hd : ∀ a ∈ p.filtered.apis, z.name ∉ FnApi.deps a) :
    ∀ b ∈ out.apis, b.name = z.name → ∃ n q, b = .ctype n q := by
  intro b hb hn
  rcases p.delivered_reachable hb with h | ⟨y, hy, hyn, -, hr⟩
  · exact h
  · have h1 := (ApiVec.get?_some_iff p.filtered_inv z.name z).2 ⟨hz, rfl⟩
    have h2 := (ApiVec.get?_some_iff p.filtered_inv z.name y).2 ⟨hy, hyn.trans hn⟩
    rw [h1] at h2
    cases h2
    generalize hq : z.name = q at hr
    cases hr with
    | root a ha hla =>
      have h3 := (ApiVec.get?_some_iff p.filtered_inv z.name a).2 ⟨ha, hq.symm⟩
      rw [h1] at h3
      cases h3
      exact absurd hla hl
    | step a ha _ _ hda => exact absurd (hq ▸ hda) (hd a ha)

/-- **C04 is false of free functions**: one which the analysis refuses is reported under its name in Rust. If this is not
on the allowlist, as when the overloads were numbered otherwise than bindgen numbered them, no trace is left of it. -/
theorem refused_function_vanishes {n : ApiName} {f : FuncToConvert} {a : FnAnalysis}
    (hx : .function n f a ∈ p.fns.apis) (hk : a.kind = .function) (hr : a.ignoreReason ≠ none)
    (hs : sanitizeErrorIdent a.rustName = none)
    (hl : cfg.isOnAllowlist hash (QName.toCppName ⟨n.name.ns, a.rustName⟩) ≠ some true)
    (hd : ∀ a ∈ p.filtered.apis, n.name ∉ FnApi.deps a) :
    ∀ b ∈ out.apis, b.name = n.name → ∃ n q, b = .ctype n q := by
  obtain ⟨env, s, s', name, soph, pre, hrun⟩ := p.function_run hx
  obtain ⟨z, hz, hzn, he⟩ := p.function_end hx fun cls _ => free_not_constructor hk cls
  cases he with
  | bound h => exact absurd h hr
  | refused h =>
    rw [(refusal_context hrun h).1 hk] at hz
    refine p.vanishes hz ?_ hd
    unfold ErrorContext.newForItem
    rw [hs]
    exact hl
  | badName e h => exact absurd h hr
  | badDep e h => exact absurd h hr

/-- One which is dropped later is reported under its name in the bridge. If this is not on the allowlist, as when
a wrapper was made for the function in C++, no trace is left of it. -/
theorem dropped_function_vanishes {n : ApiName} {f : FuncToConvert} {a : FnAnalysis}
    (hx : .function n f a ∈ p.fns.apis) (hk : a.kind = .function) (hr : a.ignoreReason = none)
    (hno : .function n f a ∉ p.filtered.apis) (hs : sanitizeErrorIdent a.cxxbridgeName = none)
    (hl : cfg.isOnAllowlist hash (QName.toCppName ⟨n.name.ns, a.cxxbridgeName⟩) ≠ some true)
    (hd : ∀ a ∈ p.filtered.apis, n.name ∉ FnApi.deps a) :
    ∀ b ∈ out.apis, b.name = n.name → ∃ n q, b = .ctype n q := by
  obtain ⟨env, s, s', name, soph, pre, hrun⟩ := p.function_run hx
  have hn : n.name.name = a.cxxbridgeName := by rw [(name_kept hrun).1]
  have marker : ∀ e, .ignoredItem n e (some (.newForItem n.name.name)) ∈ p.filtered.apis →
      ∀ b ∈ out.apis, b.name = n.name → ∃ n q, b = .ctype n q := by
    intro e hz
    refine p.vanishes hz ?_ hd
    unfold ErrorContext.newForItem
    rw [hn, hs]
    exact hl
  obtain ⟨z, hz, hzn, he⟩ := p.function_end hx fun cls _ => free_not_constructor hk cls
  cases he with
  | bound h => exact absurd hz hno
  | refused h => rw [hr] at h; cases h
  | badName e => exact marker e hz
  | badDep e _ ctx hc =>
    cases hc with
    | traitMethod h => rw [hk] at h; cases h
    | method h => rw [hk] at h; cases h
    | freeFunction => exact marker e hz
    | item h => exact absurd rfl (h n f a)

/-- **C04 (methods)**: a method of a class the user asked for is delivered or reported, except if its name in the bridge
is found to be impossible at the end. -/
theorem method_delivered_partial (q : FnPassStages fuel hash policy cfg force p.allocs.apis p.fns) {r : FnRun}
    (hr : r ∈ q.runs) (hx : .function r.n r.f r.a ∈ p.fns.apis) {m : MethodKind} {ty : QName} (hk : r.a.kind = .method m ty)
    (hc : ∀ cls, IsAbstract p.fns.apis cls → ¬ IsConstructorOf (.function r.n r.f r.a) cls)
    (hg : ty ∉ q.env.generic) (hs : sanitizeErrorIdent ty.name = none)
    (hl : cfg.isOnAllowlist hash ty.toCppName = some true)
    (hl' : cfg.isOnAllowlist hash (QName.toCppName ⟨r.n.name.ns, ty.name⟩) = some true) :
    (∃ b ∈ out.apis, b = .function r.n r.f r.a ∨ (b.name = r.n.name ∧ b.isIgnored = true)) ∨
    (r.a.ignoreReason = none ∧ ∃ e, .ignoredItem r.n e (some (.newForItem r.n.name.name)) ∈ p.filtered.apis) := by
  have hrun := q.trace.ok r hr
  obtain ⟨z, hz, hzn, he⟩ := p.function_end hx hc
  have done : (z = .function r.n r.f r.a ∨ z.isIgnored = true) →
      cfg.isOnAllowlist hash (FnApi.nameForAllowlist z).toCppName = some true →
      ∃ b ∈ out.apis, b = .function r.n r.f r.a ∨ (b.name = r.n.name ∧ b.isIgnored = true) := by
    intro h1 h2
    rcases p.listed_delivered hz h2 with h | h
    · exact ⟨z, h, h1.imp id fun h => ⟨hzn, h⟩⟩
    · exact ⟨_, h, .inr ⟨hzn, rfl⟩⟩
  cases he with
  | bound =>
    refine .inl (done (.inl rfl) ?_)
    simp only [FnApi.nameForAllowlist, hk]
    exact hl
  | refused h =>
    refine .inl (done (.inr rfl) ?_)
    rw [(refusal_context hrun h).2 m ty hk, if_neg hg]
    unfold ErrorContext.newForMethod
    rw [hs]
    exact hl'
  | badName e h => exact .inr ⟨h, e, hz⟩
  | badDep e h ctx hc =>
    refine .inl (done (.inr rfl) ?_)
    cases hc with
    | traitMethod h => rw [hk] at h; cases h
    | method h =>
      rw [hk] at h
      cases h
      unfold ErrorContext.newForMethod
      rw [hs]
      exact hl'
    | freeFunction h => rw [hk] at h; cases h
    | item h => exact absurd rfl (h _ _ _)

/-- A function whose fate is to be delivered, and no other, is a real one: what the conversion delivers is what
the analysis was asked about and found usable, and is neither a constructor of an abstract class. -/
theorem delivered_function {n : ApiName} {f : FuncToConvert} {a : FnAnalysis} (h : .function n f a ∈ out.apis) :
    .function n f a ∈ p.fns.apis ∧ a.ignoreReason = none ∧
      (∀ cls, IsAbstract p.fns.apis cls → ¬ IsConstructorOf (.function n f a) cls) ∧
      ∃ env s s' name soph pre, analyzeForeignFn env s name f soph pre = .done (s', a, n) := by
  rcases p.delivered_reachable h with ⟨_, _, e⟩ | ⟨z, hz, -, e, -⟩
  · cases e
  · rcases e with rfl | e
    · obtain ⟨-, -, x, hx, -, hf⟩ := p.item_origin hz rfl
      obtain ⟨rfl, h1, h2⟩ := hf n f a rfl
      exact ⟨hx, h1, h2, p.function_run hx⟩
    · cases e

/-- **C52 (nothing is invented)**: a delivered item other than a function, an instantiation of a template, what belongs
to a subclass, a C type or a marker is one the parser found. -/
theorem delivered_found {b : FnApi} (hb : b ∈ out.apis) (hr : b.isIgnored = false) (hi : b.invented = false) :
    (∃ n q, b = .ctype n q) ∨ b.GivenUp ∨ ∃ a ∈ p.found.apis, a.shape = b.shape := by
  rcases p.delivered_reachable hb with h | ⟨z, hz, -, e, -⟩
  · exact .inl h
  · right
    rcases e with rfl | rfl
    · obtain ⟨-, -, x, hx, hs, -⟩ := p.item_origin hz hr
      obtain ⟨q⟩ := p.fn_stages
      have hxi : x.invented = false := by
        cases x with
        | function => cases b <;> first | (cases hs; done) | cases hi
        | concreteType => cases b <;> first | (cases hs; done) | cases hi
        | rustSubclassFn => cases b <;> first | (cases hs; done) | cases hi
        | subclassTraitItem => cases b <;> first | (cases hs; done) | cases hi
        | _ => rfl
      have ho := items_from q hx
      cases ho with
      | @kept w hw =>
        rw [shape_map] at hs
        rcases p.allocs_from w hw with h | h | ⟨a, ha, has⟩
        · have : w.invented = false := by
            cases w <;> first | rfl | (cases hxi; done)
          cases w <;> first | (cases h; done) | cases this
        · exact .inl (givenUp_shape hs h)
        · exact .inr ⟨a, ha, has.trans hs⟩
      | fn => cases hxi
      | override_ => cases hxi
      | trait_ => cases hxi
      | inst => cases hxi
      | marker h => exact .inl (givenUp_shape hs (IsDup.givenUp h))
    · cases hr

end ConvertStages

end

/-! ## What the passes look up -/

theorem lookup_some {α : Type} {cb : Callbacks} {q : QName} {g : Option Nat → α} {o : Option String}
    (h : cb.originalName q = some o) (q' : QName) : (cb.idByName q').map g ≠ none := by
  unfold Callbacks.originalName at h
  cases hr : cb.rootMod with
  | none =>
    rw [Callbacks.idByName, hr] at h
    cases h
  | some r =>
    rw [Callbacks.idByName, hr]
    nofun

/-- Classes, enums and typedefs, about which passes ask. -/
def Api.lookedUp {T S F : Type} : Api T S F → Bool
  | .struct .. | .enum .. | .typedef .. => true
  | _ => false

theorem item_lookup {cfg : Config} {cb : Callbacks} {ns : List String} {l : List BindgenItem} {i : BindgenItem}
    {o : ItemOut} {a : NullApi} (h : ItemFate cfg cb ns i o) (hi : ∀ id items, i ≠ .mod id items) (ha : FromItem ns l o a)
    (hk : a.lookedUp = true) : ∃ q o, cb.originalName q = some o := by
  have hne : a ∈ o.now → (∃ q o, cb.originalName q = some o) := by
    intro hm
    cases h with
    | mod => exact absurd rfl (hi _ _)
    | forward _ _ h => exact ⟨_, _, h⟩
    | struct _ _ h => exact ⟨_, _, h⟩
    | enum _ h => exact ⟨_, _, h⟩
    | useRename _ _ _ _ h => exact ⟨_, _, h⟩
    | const h => exact ⟨_, _, h⟩
    | type h => exact ⟨_, _, h⟩
    | _ => cases hm
  rcases ha with ha | ha | ha | ⟨f, -, e⟩
  · exact hne ha
  · exfalso
    cases h with
    | mod => exact absurd rfl (hi _ _)
    | structName => cases List.mem_singleton.1 ha; cases hk
    | enumName => cases List.mem_singleton.1 ha; cases hk
    | useSelf => cases List.mem_singleton.1 ha; cases hk
    | _ => cases ha
  · exfalso
    cases h with
    | mod => exact absurd rfl (hi _ _)
    | foreign hf =>
      obtain ⟨id, hid, e⟩ := (foreign_found hf).2.2.2 _ ha
      rw [e] at hk
      cases hk
    | _ => cases ha
  · rw [e] at hk
    cases hk

/-- If parsing made a class, an enum or a typedef then looking things up does not panic afterwards: so the defaults of
`Callbacks.attrs` are never used. -/
theorem lookups_after_parse (hash : Config → Nat) (sigOf : RustSig → RustFnSig) (cfg : Config) (cb : Callbacks)
    (items : List BindgenItem) (v : ApiVec Unit Unit Unit) (h : parseBindgenItems hash sigOf cfg cb items = some (.ok v))
    {a : NullApi} (ha : a ∈ v.apis)
    (hk : a.lookedUp = true) (q : QName) :
    cb.discardsOf q = some (cb.attrs.discardsTemplateParam q) ∧
    cb.cppVisibilityOf q = some (cb.attrs.cppVisibility q) := by
  have main : ∃ q' o, cb.originalName q' = some o := by
    obtain ⟨l, ⟨lc, root, outs, -, hroot, -, -⟩, -, -⟩ := (parse_ok_iff ..).1 h
    rcases parsed_from _ _ _ _ _ root _ h hroot _ ha with h | ⟨b, h1, h2⟩
    · obtain ⟨_, _, _, _, -, -, -, e⟩ := h
      rw [e] at hk
      cases hk
    · rcases h1 with rfl | e
      · rcases h2 with h2 | ⟨ns, l, i, o, -, -, hf, hfr, id, hn, -⟩
        · rcases h2 with ⟨-, e⟩ | ⟨sc, hsc, e⟩ | ⟨_, -, _, -, e⟩ | ⟨_, _, -, e⟩ | ⟨_, -, e⟩ <;> rw [e] at hk <;> cases hk
        · exact item_lookup hf (named_not_mod hn) hfr hk
      · rw [e] at hk
        cases hk
  obtain ⟨q', o, ho⟩ := main
  refine ⟨?_, ?_⟩
  · have := lookup_some (g := fun i => match i with
      | some i => decide (i ∈ cb.discards)
      | none => false) ho q
    show cb.discardsOf q = some ((cb.discardsOf q).getD false)
    cases hd : cb.discardsOf q with
    | none => exact absurd hd this
    | some => rfl
  · have := lookup_some (g := fun i => (i.bind cb.visibility.get?).getD .pub) ho q
    show cb.cppVisibilityOf q = some ((cb.cppVisibilityOf q).getD .pub)
    cases hd : cb.cppVisibilityOf q with
    | none => exact absurd hd this
    | some => rfl

/-! ## The conversion as a whole -/

/-- **C52**: whatever the input, if the conversion succeeds then what it delivers is complete in itself, and besides
there are only the C types it uses. -/
theorem convert_delivers {fuel : Nat} {hash : Config → Nat} {sigOf : RustSig → RustFnSig} {policy : UnsafePolicy}
    {cfg : Config} {force : Bool} {cb : Callbacks} {items : List BindgenItem} {out : FnApiVec}
    (h : convertApisFrom fuel hash sigOf policy cfg force cb (some items) = .done (.ok out)) :
    (out.apis.map (·.name)).Nodup ∧ ∃ l : FnApiVec, Delivered hash cfg l ∧
      ∀ b ∈ out.apis, b ∈ l.apis ∨
        ∃ ty, UsesCtype l.apis ty ∧ b.name = ⟨[], ty.name⟩ ∧
          ((∃ ty', ty'.name = ty.name ∧ b = .ctype ⟨b.name, none⟩ ty') ∨
            b.IsDup ∧ ∃ a ∈ l.apis, a.name = b.name) := by
  obtain ⟨p⟩ := (convert_ok_iff ..).1 h
  refine ⟨p.out_inv.1, p.collected, p.delivered, fun b hb => ?_⟩
  have hget := (ApiVec.get?_some_iff p.out_inv b.name b).2 ⟨hb, rfl⟩
  have hout := (congrArg (fun v => ApiVec.get? v b.name) p.hout).trans (appendCtypes_get p.collected p.collected_inv b.name)
  rw [hget] at hout
  split at hout
  · rename_i hns
    split at hout
    · rename_i ty hty
      obtain ⟨h1, h2⟩ := (ctypesUsed_spec p.collected.apis b.name.name).1 ty hty
      refine .inr ⟨ty, h2, by rw [h1, ← hns], ?_⟩
      cases hz : p.collected.get? b.name with
      | none =>
        rw [hz] at hout
        exact .inl ⟨ty, rfl, Option.some.inj hout⟩
      | some z =>
        rw [hz] at hout
        obtain ⟨h3, h4⟩ := (ApiVec.get?_some_iff p.collected_inv _ _).1 hz
        exact .inr ⟨Option.some.inj hout, z, h3, h4⟩
    · exact .inl ((ApiVec.get?_some_iff p.collected_inv _ _).1 hout.symm).1
  · exact .inl ((ApiVec.get?_some_iff p.collected_inv _ _).1 hout.symm).1

/-- **C50 (the whole conversion)**: what the user names in `generate!` is found, and if it is not a function, and nothing
invented takes its name, it is delivered, or what is delivered in its place says that it was given up. -/
theorem directive_delivered_partial {fuel : Nat} {hash : Config → Nat} {sigOf : RustSig → RustFnSig}
    {policy : UnsafePolicy} {cfg : Config} {force : Bool} {cb : Callbacks} {items : List BindgenItem} {out : FnApiVec}
    (p : ConvertStages fuel hash sigOf policy cfg force cb items out) {l : List AllowlistEntry} {d : String}
    (hl : cfg.allowlist = .specific l) (hd : .item d ∈ l) :
    ∃ a ∈ p.found.apis, a.name.toCppName = d ∧
      (a.isFn = false → (NullApi.listedAs a).toCppName = d →
        (∀ y ∈ p.allocs.apis, y.name = a.name → y.invented = false) →
        (∀ y ∈ p.fns.apis, y.name = a.name → y.invented = false) → ∃ b ∈ out.apis, Follows a b) := by
  obtain ⟨a, ha, he⟩ := directives_obeyed hash sigOf cfg cb items p.found p.hparse d (.inl ⟨l, hl, hd⟩)
  have hon : cfg.isOnAllowlist hash d = some true :=
    (on_allowlist_iff hash cfg d).2 (.inr (.inr ⟨l, hl, _, hd, .inl rfl⟩))
  exact ⟨a, ha, he, fun h1 h2 h3 h4 => p.item_delivered ha h1 h3 h4 (he ▸ hon) (h2 ▸ hon)⟩

/-! ## Witnesses -/

/-- **C06, C52 are false with C types**: they are added after the names were checked, so a class can have the name a
C type has in the bridge. -/
theorem ctype_bridge_clash_false :
    ∃ v : FnApiVec, v.Inv ∧ (v.apis.filterMap FnApi.cxxbridgeName).Nodup ∧
      ¬ ((appendCtypes v).apis.filterMap FnApi.cxxbridgeName).Nodup := by
  have hk : isCtype ⟨["autocxx"], "c_int"⟩ = true := by
    unfold isCtype; rw [knownGet_eq_lit]; decide +kernel
  let cls : FnApi := .struct ⟨⟨["ns"], "c_int"⟩, none⟩ {} {}
  let f : FnApi := .function ⟨⟨[], "f"⟩, none⟩ {} { deps := [⟨["autocxx"], "c_int"⟩], cxxbridgeName := "f" }
  let v : FnApiVec := { apis := [cls, f], names := [⟨["ns"], "c_int"⟩, ⟨[], "f"⟩] }
  have hv : v.Inv := ⟨by decide, by decide⟩
  have hap : (appendCtypes v).apis = [cls, f, .ctype ⟨⟨[], "c_int"⟩, none⟩ ⟨["autocxx"], "c_int"⟩] := by
    have hu : ctypesUsed v.apis = [("c_int", ⟨["autocxx"], "c_int"⟩)] := by
      unfold ctypesUsed
      have : (v.apis.flatMap FnApi.deps) = [⟨["autocxx"], "c_int"⟩] := by decide
      rw [this]
      simp [hk, AMap.insert]
    unfold appendCtypes
    rw [hu]
    decide
  refine ⟨v, hv, by decide, ?_⟩
  rw [hap]
  decide

end Verif
