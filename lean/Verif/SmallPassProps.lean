import Verif.PodPassMore
import Verif.GcProps
import Mathlib.Data.List.Nodup

/-!
# Properties of the smaller passes: hopeless typedefs, casts, allocators and constructor dependencies
-/

set_option autoImplicit false

namespace Verif

/-! ## Hopeless typedefs (C43) -/

/-- There is an ignored item of this name. -/
def IsIgnoredName (apis : List PodApi) (q : QName) : Prop := ∃ n e c, Api.ignoredItem n e c ∈ apis ∧ n.name = q

/-- There is a forward declaration of this name which could not be understood. -/
def IsFailedForward (apis : List PodApi) (q : QName) : Prop :=
  ∃ n e, Api.forwardDeclaration n (some e) ∈ apis ∧ n.name = q

/-- A name denotes a type nested in another. -/
def IsNestedName (n : ApiName) : Prop := "::".toList <:+: n.effectiveCppName.toList

/-- What becomes of an item. -/
inductive HopelessFate (cfg : Config) (apis : List PodApi) : PodApi → PodApi → Prop
  | nested {n : ApiName} {i : TypedefItem} {o : Option QName} {a : TypedefAnalysis}
      (h : ∃ d ∈ a.deps, IsIgnoredName apis d) (hn : IsNestedName n) :
      HopelessFate cfg apis (.typedef n i o a)
        (.ignoredItem n .nestedOpaqueTypedef (some (.newForItem n.name.name)))
  | opaqueOfIgnored {n : ApiName} {i : TypedefItem} {o : Option QName} {a : TypedefAnalysis} {forward : Bool}
      (h : ∃ d ∈ a.deps, IsIgnoredName apis d) (hn : ¬ IsNestedName n)
      (hf : forward = false ↔ n.name.toCppName ∈ cfg.instantiable) :
      HopelessFate cfg apis (.typedef n i o a) (.opaqueTypedef n forward)
  | opaqueOfFailed {n : ApiName} {i : TypedefItem} {o : Option QName} {a : TypedefAnalysis}
      (hi : ∀ d ∈ a.deps, ¬ IsIgnoredName apis d) (h : ∃ d ∈ a.deps, IsFailedForward apis d) :
      HopelessFate cfg apis (.typedef n i o a) (.opaqueTypedef n true)
  | typedef {n : ApiName} {i : TypedefItem} {o : Option QName} {a : TypedefAnalysis}
      (h : ∀ d ∈ a.deps, ¬ IsIgnoredName apis d ∧ ¬ IsFailedForward apis d) :
      HopelessFate cfg apis (.typedef n i o a) (.typedef n i o a)
  | failed {n : ApiName} {e : ErrWithCtx} :
      HopelessFate cfg apis (.forwardDeclaration n (some e)) (.ignoredItem n e.err e.ctx)
  | other {a : PodApi} (ht : ∀ n i o x, a ≠ .typedef n i o x) (hf : ∀ n e, a ≠ .forwardDeclaration n (some e)) :
      HopelessFate cfg apis a a

theorem HopelessFate.name {cfg : Config} {apis : List PodApi} {a b : PodApi} (h : HopelessFate cfg apis a b) :
    b.name = a.name := by
  cases h <;> rfl

theorem mem_ignored_iff (apis : List PodApi) (q : QName) :
    q ∈ ignoredTypes apis ↔ IsIgnoredName apis q := by
  rw [ignoredTypes, List.mem_filterMap]
  constructor
  · rintro ⟨a, ha, he⟩
    cases a with
    | ignoredItem n e c => exact ⟨n, e, c, ha, Option.some.inj he⟩
    | _ => cases he
  · rintro ⟨n, e, c, ha, rfl⟩
    exact ⟨_, ha, rfl⟩

theorem mem_failed_iff (apis : List PodApi) (q : QName) :
    q ∈ ignoredForwardDeclarations apis ↔ IsFailedForward apis q := by
  rw [ignoredForwardDeclarations, List.mem_filterMap]
  constructor
  · rintro ⟨a, ha, he⟩
    cases a with
    | forwardDeclaration n e =>
      cases e with
      | none => cases he
      | some e => exact ⟨n, e, ha, Option.some.inj he⟩
    | _ => cases he
  · rintro ⟨n, e, ha, rfl⟩
    exact ⟨_, ha, rfl⟩

theorem replaceHopeless_fate (cfg : Config) (apis : List PodApi) (ignored errored : List QName)
    (hi : ∀ q, q ∈ ignored ↔ IsIgnoredName apis q) (he : ∀ q, q ∈ errored ↔ IsFailedForward apis q) (a : PodApi) :
    HopelessFate cfg apis a (replaceHopeless cfg ignored errored a) := by
  have nested : ∀ n, effectiveNameNested n = true ↔ IsNestedName n := fun n => containsStr_iff _ _
  cases a with
  | typedef n i o x =>
    rw [replaceHopeless]
    by_cases h1 : (x.deps.any (· ∈ ignored)) = true
    · rw [if_pos h1]
      have h1' : ∃ d ∈ x.deps, IsIgnoredName apis d := by
        obtain ⟨d, hd, h⟩ := List.any_eq_true.1 h1
        exact ⟨d, hd, (hi d).1 (of_decide_eq_true h)⟩
      by_cases h2 : effectiveNameNested n = true
      · rw [if_pos h2]; exact .nested h1' ((nested n).1 h2)
      · rw [if_neg h2]
        refine .opaqueOfIgnored h1' (fun h => h2 ((nested n).2 h)) ?_
        simp
    · rw [if_neg h1]
      have h1' : ∀ d ∈ x.deps, ¬ IsIgnoredName apis d := fun d hd h =>
        h1 (List.any_eq_true.2 ⟨d, hd, decide_eq_true ((hi d).2 h)⟩)
      by_cases h2 : (x.deps.any (· ∈ errored)) = true
      · rw [if_pos h2]
        obtain ⟨d, hd, h⟩ := List.any_eq_true.1 h2
        exact .opaqueOfFailed h1' ⟨d, hd, (he d).1 (of_decide_eq_true h)⟩
      · rw [if_neg h2]
        exact .typedef fun d hd => ⟨h1' d hd, fun h =>
          h2 (List.any_eq_true.2 ⟨d, hd, decide_eq_true ((he d).2 h)⟩)⟩
  | forwardDeclaration n e =>
    cases e with
    | none => exact .other (by intros; intro e; cases e) (by intros; intro e; cases e)
    | some e => exact .failed
  | _ => exact .other (by intros; intro e; cases e) (by intros; intro e; cases e)

/-- **C43**: what becomes of every item: typedefs which depend on an ignored item or a failed forward declaration
become opaque, or are reported if they are nested types; failed forward declarations are reported; nothing else
changes. -/
theorem hopeless_pass (cfg : Config) (apis : ApiVec TypedefAnalysis PodAnalysis Unit) (hi : apis.Inv) :
    All2 (HopelessFate cfg apis.apis) apis.apis (replaceHopelessTypedefTargets cfg apis).apis := by
  have hf := replaceHopeless_fate cfg apis.apis _ _ (mem_ignored_iff apis.apis) (mem_failed_iff apis.apis)
  unfold replaceHopelessTypedefTargets
  rw [fromIter_apis]
  · generalize replaceHopeless cfg (ignoredTypes apis.apis) (ignoredForwardDeclarations apis.apis) = g at hf
    generalize apis.apis = A at hf ⊢
    have : ∀ l : List PodApi, All2 (HopelessFate cfg A) l (l.map g) := by
      intro l
      induction l with
      | nil => exact .nil
      | cons a l ih => exact .cons (hf a) ih
    exact this A
  · rw [List.map_map]
    have : (apis.apis.map ((·.name) ∘ replaceHopeless cfg (ignoredTypes apis.apis)
        (ignoredForwardDeclarations apis.apis))) = apis.apis.map (·.name) :=
      List.map_congr_left fun a _ => (hf a).name
    rw [this]
    exact hi.1

/-- **C43 (partial)**: no target of a remaining typedef uses what was an ignored item or a failed forward
declaration before the pass. The full claim, that no remaining typedef depends on an ignored item, is false, see
below. -/
theorem hopeless_typedefs_partial (cfg : Config) (apis : ApiVec TypedefAnalysis PodAnalysis Unit) (hi : apis.Inv)
    (n : ApiName) (i : TypedefItem) (o : Option QName) (a : TypedefAnalysis)
    (h : .typedef n i o a ∈ (replaceHopelessTypedefTargets cfg apis).apis) :
    Api.typedef n i o a ∈ apis.apis ∧ ∀ d ∈ a.deps, ¬ IsIgnoredName apis.apis d ∧ ¬ IsFailedForward apis.apis d := by
  obtain ⟨x, hx, hf⟩ := (hopeless_pass cfg apis hi).right h
  generalize hb : Api.typedef n i o a = b at hf
  cases hf with
  | typedef h => cases hb; exact ⟨hx, h⟩
  | other ht => subst hb; exact absurd rfl (ht _ _ _ _)
  | _ => cases hb

/-- **C43**: an opaque typedef may be destroyed and built only if the user said so. -/
theorem hopeless_instantiable (cfg : Config) (apis : ApiVec TypedefAnalysis PodAnalysis Unit) (hi : apis.Inv)
    (n : ApiName) (h : .opaqueTypedef n false ∈ (replaceHopelessTypedefTargets cfg apis).apis) :
    n.name.toCppName ∈ cfg.instantiable ∨ Api.opaqueTypedef n false ∈ apis.apis := by
  obtain ⟨x, hx, hf⟩ := (hopeless_pass cfg apis hi).right h
  generalize hb : Api.opaqueTypedef n false = b at hf
  cases hf with
  | opaqueOfIgnored h hn hf => cases hb; exact .inl (hf.1 rfl)
  | other ht => subst hb; exact .inr hx
  | _ => cases hb

/-- After the pass no forward declaration carries an error. -/
theorem hopeless_no_failed_forward (cfg : Config) (apis : ApiVec TypedefAnalysis PodAnalysis Unit) (hi : apis.Inv)
    (q : QName) : ¬ IsFailedForward (replaceHopelessTypedefTargets cfg apis).apis q := by
  rintro ⟨n, e, h, rfl⟩
  obtain ⟨x, hx, hf⟩ := (hopeless_pass cfg apis hi).right h
  generalize hb : Api.forwardDeclaration n (some e) = b at hf
  cases hf with
  | other _ hf => subst hb; exact hf _ _ rfl
  | _ => cases hb

/-- An ignored type, a nested typedef of it, and a typedef of that typedef; a typedef made by `use` of the ignored
type. -/
def exHopeless : ApiVec TypedefAnalysis PodAnalysis Unit := ApiVec.fromIter
  [.ignoredItem ⟨⟨[], "Bad"⟩, none⟩ .unusedTemplateParam none,
   .typedef ⟨⟨[], "Plain"⟩, none⟩ { ty := .other "" } none { deps := [⟨[], "Bad"⟩] },
   .typedef ⟨⟨[], "Out_In"⟩, some "Out::In"⟩ { ty := .other "" } none { deps := [⟨[], "Bad"⟩] },
   .typedef ⟨⟨[], "Of"⟩, none⟩ { ty := .other "" } none { deps := [⟨[], "Out_In"⟩] },
   .typedef ⟨⟨[], "Used"⟩, none⟩ { isUse := true, ty := .other "" } (some ⟨[], "Bad"⟩) { deps := [] },
   .forwardDeclaration ⟨⟨[], "Fwd"⟩, none⟩ (some ⟨.unusedTemplateParam, none⟩),
   .typedef ⟨⟨[], "OfFwd"⟩, none⟩ { ty := .other "" } none { deps := [⟨[], "Fwd"⟩] }]

example : (replaceHopelessTypedefTargets { instantiable := ["Plain"] } exHopeless).apis =
  [.ignoredItem ⟨⟨[], "Bad"⟩, none⟩ .unusedTemplateParam none,
   .opaqueTypedef ⟨⟨[], "Plain"⟩, none⟩ false,
   .ignoredItem ⟨⟨[], "Out_In"⟩, some "Out::In"⟩ .nestedOpaqueTypedef (some (.item "Out_In")),
   .typedef ⟨⟨[], "Of"⟩, none⟩ { ty := .other "" } none { deps := [⟨[], "Out_In"⟩] },
   .typedef ⟨⟨[], "Used"⟩, none⟩ { isUse := true, ty := .other "" } (some ⟨[], "Bad"⟩) { deps := [] },
   .ignoredItem ⟨⟨[], "Fwd"⟩, none⟩ .unusedTemplateParam none,
   .opaqueTypedef ⟨⟨[], "OfFwd"⟩, none⟩ true] := by decide_known

/-- **C43 is false**: a typedef of a nested typedef which the pass itself reports stays a typedef of something
ignored. -/
theorem hopeless_chain_false : ∃ (cfg : Config) (apis : ApiVec TypedefAnalysis PodAnalysis Unit), apis.Inv ∧
    ∃ n i o a d, Api.typedef n i o a ∈ (replaceHopelessTypedefTargets cfg apis).apis ∧ d ∈ a.deps ∧
      IsIgnoredName (replaceHopelessTypedefTargets cfg apis).apis d := by
  refine ⟨{}, exHopeless, fromIter_inv _, ⟨⟨[], "Of"⟩, none⟩, { ty := .other "" }, none, { deps := [⟨[], "Out_In"⟩] }, ⟨[], "Out_In"⟩,
    ?_, by simp, ?_⟩
  · decide
  · exact ⟨⟨⟨[], "Out_In"⟩, some "Out::In"⟩, .nestedOpaqueTypedef, some (.item "Out_In"), by decide_known, rfl⟩

/-- **C43 is false**: a typedef which stems from a `use` keeps referring to an ignored item, because it records no
dependencies other than the item it renames. -/
theorem hopeless_use_false : ∃ (cfg : Config) (apis : ApiVec TypedefAnalysis PodAnalysis Unit), apis.Inv ∧
    ∃ n i o a, Api.typedef n i (some o) a ∈ (replaceHopelessTypedefTargets cfg apis).apis ∧
      IsIgnoredName apis.apis o := by
  refine ⟨{}, exHopeless, fromIter_inv _, ⟨⟨[], "Used"⟩, none⟩, { isUse := true, ty := .other "" }, ⟨[], "Bad"⟩, { deps := [] }, ?_, ?_⟩
  · decide
  · exact ⟨⟨⟨[], "Bad"⟩, none⟩, .unusedTemplateParam, none, by decide, rfl⟩

/-! ## Adding items before others -/

theorem added_nodup {T S F : Type} (l : List (Api T S F)) (new : Api T S F → List (Api T S F))
    (h1 : (l.map (·.name)).Nodup) (h2 : ∀ a ∈ l, ∀ x ∈ new a, ∀ b ∈ l, x.name ≠ b.name)
    (h3 : ∀ a ∈ l, ((new a).map (·.name)).Nodup)
    (h4 : ∀ a ∈ l, ∀ b ∈ l, a.name ≠ b.name → ∀ x ∈ new a, ∀ y ∈ new b, x.name ≠ y.name) :
    ((l.flatMap fun a => new a ++ [a]).map (·.name)).Nodup := by
  induction l with
  | nil => exact List.nodup_nil
  | cons a l ih =>
    rw [List.map_cons, List.nodup_cons] at h1
    rw [List.flatMap_cons, List.map_append, List.nodup_append]
    refine ⟨?_, ?_, ?_⟩
    · rw [List.map_append, List.nodup_append]
      refine ⟨h3 a (by simp), by simp, ?_⟩
      intro x hx y hy
      obtain ⟨x', hx', rfl⟩ := List.mem_map.1 hx
      obtain ⟨y', hy', rfl⟩ := List.mem_map.1 hy
      rw [List.mem_singleton] at hy'
      subst hy'
      exact h2 _ (by simp) _ hx' _ (by simp)
    · exact ih h1.2 (fun a ha x hx b hb => h2 a (by simp [ha]) x hx b (by simp [hb]))
        (fun a ha => h3 a (by simp [ha])) (fun a ha b hb => h4 a (by simp [ha]) b (by simp [hb]))
    · intro x hx y hy
      obtain ⟨x', hx', rfl⟩ := List.mem_map.1 hx
      obtain ⟨y', hy', rfl⟩ := List.mem_map.1 hy
      obtain ⟨b, hb, hy'⟩ := List.mem_flatMap.1 hy'
      have hab : a.name ≠ b.name := fun e => h1.1 (List.mem_map.2 ⟨b, hb, e.symm⟩)
      rw [List.mem_append, List.mem_singleton] at hx' hy'
      rcases hx' with hx' | rfl <;> rcases hy' with hy' | rfl
      · exact h4 a (by simp) b (by simp [hb]) hab _ hx' _ hy'
      · exact h2 a (by simp) _ hx' _ (by simp [hb])
      · exact fun e => h2 b (by simp [hb]) _ hy' _ (by simp) e.symm
      · exact hab

/-! ## Casts (C44) -/

/-- A function which casts a reference to `derived` to a reference to `base`, both const. -/
def IsUpcast (derived base : QName) (x : PodApi) : Prop :=
  ∃ (n : ApiName) (f : FuncToConvert), x = .function n f () ∧ n.name.ns = derived.ns ∧ f.cppVis = .pub ∧
    f.inputs = [.typed "this" (.ptr false (.path derived.toTypePath []))] ∧
    f.output = some (.path ["__bindgen_marker_Reference"] [.ptr false (.path base.toTypePath [])]) ∧
    f.selfTy = some derived ∧ f.addToTrait = some (.cast base .constToConst) ∧
    f.syntheticCpp = some (.cast, .function) ∧ f.isDeleted = none ∧ f.specialMember = none ∧
    f.provenance = .synthesizedOther ∧ f.ident = n.name.name

theorem createCast_isUpcast (derived base : QName) : IsUpcast derived base (createCast derived base) :=
  ⟨_, _, rfl, rfl, rfl, rfl, rfl, rfl, rfl, rfl, rfl, rfl, rfl, rfl⟩

/-- The names `cast_D_to_B` of the casts which are made are distinct, and no other item has such a name. -/
structure CastNamesApart (apis : List PodApi) : Prop where
  fresh : ∀ n d a, Api.struct n d a ∈ apis → ∀ b ∈ a.castableBases, ∀ x ∈ apis,
    x.name ≠ ⟨n.name.ns, "cast_" ++ n.name.name ++ "_to_" ++ b.name⟩
  bases : ∀ n d a, Api.struct n d a ∈ apis → (a.castableBases.map (·.name)).Nodup
  apart : ∀ n d a n' d' a', Api.struct n d a ∈ apis → Api.struct n' d' a' ∈ apis → n.name ≠ n'.name →
    n.name.ns = n'.name.ns → ∀ b ∈ a.castableBases, ∀ b' ∈ a'.castableBases,
    "cast_" ++ n.name.name ++ "_to_" ++ b.name ≠ "cast_" ++ n'.name.name ++ "_to_" ++ b'.name

theorem str_append_left_cancel (a b c : String) (h : a ++ b = a ++ c) : b = c := by
  have := congrArg String.toList h
  rw [String.toList_append, String.toList_append, List.append_cancel_left_eq] at this
  exact String.toList_inj.1 this

theorem str_append_right_cancel (a b c : String) (h : b ++ a = c ++ a) : b = c := by
  have := congrArg String.toList h
  rw [String.toList_append, String.toList_append, List.append_cancel_right_eq] at this
  exact String.toList_inj.1 this

/-- The casts made for an item. -/
def castsFor : PodApi → List PodApi
  | .struct n _ an => an.castableBases.map (createCast n.name)
  | _ => []

theorem addCasts_eq (apis : ApiVec TypedefAnalysis PodAnalysis Unit) :
    addCasts apis = ApiVec.fromIter (apis.apis.flatMap fun a => castsFor a ++ [a]) := by
  unfold addCasts
  congr 1
  induction apis.apis with
  | nil => rfl
  | cons a l ih =>
    rw [List.flatMap_cons, List.flatMap_cons, ih]
    cases a <;> rfl

theorem mem_castsFor {a x : PodApi} (h : x ∈ castsFor a) :
    ∃ n d an b, a = .struct n d an ∧ b ∈ an.castableBases ∧ x = createCast n.name b := by
  cases a with
  | struct n d an =>
    obtain ⟨b, hb, rfl⟩ := List.mem_map.1 h
    exact ⟨n, d, an, b, rfl, hb, rfl⟩
  | _ => cases h

theorem mem_addCasts (apis : ApiVec TypedefAnalysis PodAnalysis Unit) (hi : apis.Inv)
    (ha : CastNamesApart apis.apis) (x : PodApi) : x ∈ (addCasts apis).apis ↔ x ∈ apis.apis ∨
      ∃ n d a b, Api.struct n d a ∈ apis.apis ∧ b ∈ a.castableBases ∧ x = createCast n.name b := by
  rw [addCasts_eq]
  have nm : ∀ n b, (createCast n b).name = ⟨n.ns, "cast_" ++ n.name ++ "_to_" ++ b.name⟩ := fun _ _ => rfl
  rw [fromIter_apis, List.mem_flatMap]
  · constructor
    · rintro ⟨a, hm, hx⟩
      rw [List.mem_append, List.mem_singleton] at hx
      rcases hx with hx | rfl
      · obtain ⟨n, d, an, b, rfl, hb, rfl⟩ := mem_castsFor hx
        exact .inr ⟨n, d, an, b, hm, hb, rfl⟩
      · exact .inl hm
    · rintro (hx | ⟨n, d, a, b, hm, hb, rfl⟩)
      · exact ⟨x, hx, by simp⟩
      · exact ⟨_, hm, List.mem_append.2 (.inl (List.mem_map.2 ⟨b, hb, rfl⟩))⟩
  · refine added_nodup _ _ hi.1 ?_ ?_ ?_
    · intro a hm x hx b hb
      obtain ⟨n, d, an, c, rfl, hc, rfl⟩ := mem_castsFor hx
      exact fun e => ha.fresh n d an hm c hc b hb e.symm
    · intro a hm
      cases a with
      | struct n d an =>
        have := ha.bases n d an hm
        unfold castsFor
        rw [List.map_map]
        rw [List.nodup_iff_pairwise_ne, List.pairwise_map] at this ⊢
        refine this.imp fun {b c} hbc e => hbc ?_
        exact str_append_left_cancel _ _ _ (QName.mk.inj e).2
      | _ => exact List.nodup_nil
    · intro a hm b hb hab x hx y hy e
      obtain ⟨n, d, an, c, rfl, hc, rfl⟩ := mem_castsFor hx
      obtain ⟨n', d', an', c', rfl, hc', rfl⟩ := mem_castsFor hy
      rw [nm, nm] at e
      obtain ⟨e1, e2⟩ := QName.mk.inj e
      exact ha.apart _ _ _ _ _ _ hm hb hab e1 c hc c' hc' e2

/-- **C44 (partial)**: if the names of casts are distinct, the pass adds exactly one upcast from each struct to each of
its castable bases, and nothing else. The condition is needed: `casts_collide_false`. -/
theorem casts_added_partial (apis : ApiVec TypedefAnalysis PodAnalysis Unit) (hi : apis.Inv)
    (ha : CastNamesApart apis.apis) :
    (addCasts apis).Inv ∧ (∀ x ∈ apis.apis, x ∈ (addCasts apis).apis) ∧
    (∀ x ∈ (addCasts apis).apis, x ∈ apis.apis ∨
      ∃ n d a b, Api.struct n d a ∈ apis.apis ∧ b ∈ a.castableBases ∧ IsUpcast n.name b x) ∧
    ∀ n d a b, Api.struct n d a ∈ apis.apis → b ∈ a.castableBases → ∃ x ∈ (addCasts apis).apis,
      IsUpcast n.name b x ∧ ∀ y ∈ (addCasts apis).apis, y ∉ apis.apis → IsUpcast n.name b y → y = x := by
  refine ⟨by rw [addCasts_eq]; exact fromIter_inv _, fun x hx => (mem_addCasts apis hi ha x).2 (.inl hx), ?_, ?_⟩
  · intro x hx
    rcases (mem_addCasts apis hi ha x).1 hx with h | ⟨n, d, a, b, hm, hb, rfl⟩
    · exact .inl h
    · exact .inr ⟨n, d, a, b, hm, hb, createCast_isUpcast _ _⟩
  · intro n d a b hm hb
    refine ⟨_, (mem_addCasts apis hi ha _).2 (.inr ⟨n, d, a, b, hm, hb, rfl⟩), createCast_isUpcast _ _, ?_⟩
    intro y hy hny hu
    rcases (mem_addCasts apis hi ha y).1 hy with h | ⟨n', d', a', b', hm', hb', rfl⟩
    · exact absurd h hny
    · obtain ⟨m, f, e, -, -, -, -, h1, h2, -⟩ := hu
      cases e
      have e1 : n'.name = n.name := Option.some.inj h1
      have e2 : b' = b := (TraitSynthesis.cast.inj (Option.some.inj h2)).1
      rw [e1, e2]

/-- **C44, C61 (partial)**: after the POD pass, a struct is cast to exactly those bases which are public and on the
allowlist. If a base is inherited from twice, the last time counts. -/
theorem upcasts_exact_partial (fuel : Nat) (hash : Config → Nat) (cfg : Config) (attrs : Attrs)
    (apis : ApiVec TypedefAnalysis Unit Unit) (v : ApiVec TypedefAnalysis PodAnalysis Unit)
    (h : analyzePodApis fuel hash cfg attrs apis = .done (.ok v)) (hi : v.Inv) (ha : CastNamesApart v.apis)
    (n : ApiName) (d : StructDetails) (an : PodAnalysis) (hm : .struct n d an ∈ v.apis) (b : QName) :
    (∃ x ∈ (addCasts v).apis, x ∉ v.apis ∧ IsUpcast n.name b x) ↔
      LastBase d.fields b true ∧ cfg.isOnAllowlist hash b.toCppName = some true := by
  obtain ⟨-, -, -, pod, s, s', out, -, -, -, hk⟩ := pod_pass_kept fuel hash cfg attrs apis v h n d an hm
  rw [← hk.castable]
  constructor
  · rintro ⟨x, hx, hnx, hu⟩
    rcases (mem_addCasts v hi ha x).1 hx with h | ⟨n', d', a', b', hm', hb', rfl⟩
    · exact absurd h hnx
    · obtain ⟨m, f, e, -, -, -, -, h1, h2, -⟩ := hu
      cases e
      have e1 : n'.name = n.name := Option.some.inj h1
      have e2 : b' = b := (TraitSynthesis.cast.inj (Option.some.inj h2)).1
      subst e2
      have : (Api.struct n' d' a' : PodApi) = .struct n d an := by
        have g1 := (ApiVec.get?_some_iff hi n'.name _).2 ⟨hm', rfl⟩
        have g2 := (ApiVec.get?_some_iff hi n.name _).2 ⟨hm, rfl⟩
        rw [e1, g2] at g1
        exact (Option.some.inj g1).symm
      cases this
      exact hb'
  · intro hb
    refine ⟨_, (mem_addCasts v hi ha _).2 (.inr ⟨n, d, an, b, hm, hb, rfl⟩), ?_, createCast_isUpcast _ _⟩
    intro hx
    exact ha.fresh n d an hm b hb _ hx rfl

/-- A class which inherits from two classes of the same name in different namespaces. -/
def exCollide : ApiVec TypedefAnalysis PodAnalysis Unit := ApiVec.fromIter
  [.struct ⟨⟨["a"], "Base"⟩, none⟩ {} {},
   .struct ⟨⟨["b"], "Base"⟩, none⟩ {} {},
   .struct ⟨⟨[], "D"⟩, none⟩ {}
     { bases := [⟨["a"], "Base"⟩, ⟨["b"], "Base"⟩]
       castableBases := [⟨["a"], "Base"⟩, ⟨["b"], "Base"⟩] }]

/-- **C44 is false**: a class with two bases of the same name, in different namespaces, can be cast to neither. -/
theorem casts_collide_false : ∃ (apis : ApiVec TypedefAnalysis PodAnalysis Unit), apis.Inv ∧
    ∃ n d a, Api.struct n d a ∈ apis.apis ∧ a.castableBases.length = 2 ∧ a.castableBases.Nodup ∧
      ∀ b ∈ a.castableBases, ∀ x ∈ (addCasts apis).apis, ¬ IsUpcast n.name b x := by
  refine ⟨exCollide, fromIter_inv _, ⟨⟨[], "D"⟩, none⟩, {},
    { bases := [⟨["a"], "Base"⟩, ⟨["b"], "Base"⟩]
      castableBases := [⟨["a"], "Base"⟩, ⟨["b"], "Base"⟩] }, by decide, rfl, by decide, ?_⟩
  intro b _ x hx hu
  obtain ⟨n, f, rfl, -⟩ := hu
  have : (addCasts exCollide).apis.all (fun x => match x with
    | .function _ _ _ => false
    | _ => true) = true := by decide
  have := List.all_eq_true.1 this _ hx
  cases this

/-- A class with a public base, as seen by the pass. -/
def exCasts : ApiVec TypedefAnalysis PodAnalysis Unit := ApiVec.fromIter
  [.struct ⟨⟨["a"], "Base"⟩, none⟩ {} {},
   .struct ⟨⟨[], "D"⟩, none⟩ {} { bases := [⟨["a"], "Base"⟩], castableBases := [⟨["a"], "Base"⟩] }]

example : (addCasts exCasts).apis.map (·.name) =
    [⟨["a"], "Base"⟩, ⟨[], "cast_D_to_Base"⟩, ⟨[], "D"⟩] := by decide

example : CastNamesApart exCasts.apis := by
  have hs : ∀ n d a, Api.struct n d a ∈ exCasts.apis → a.castableBases ≠ [] →
      n.name = ⟨[], "D"⟩ ∧ a.castableBases = [⟨["a"], "Base"⟩] := by
    intro n d a h hne
    have e : exCasts.apis = [.struct ⟨⟨["a"], "Base"⟩, none⟩ {} {},
      .struct ⟨⟨[], "D"⟩, none⟩ {} { bases := [⟨["a"], "Base"⟩], castableBases := [⟨["a"], "Base"⟩] }] := rfl
    rw [e] at h
    simp only [List.mem_cons, List.not_mem_nil, or_false] at h
    rcases h with h | h
    · cases h; exact absurd rfl hne
    · cases h; exact ⟨rfl, rfl⟩
  refine ⟨?_, ?_, ?_⟩
  · intro n d a h b hb x hx e
    obtain ⟨h1, h2⟩ := hs n d a h (List.ne_nil_of_mem hb)
    rw [h2, List.mem_singleton] at hb
    subst hb
    rw [h1] at e
    have hx' : x.name ∈ exCasts.apis.map (·.name) := List.mem_map.2 ⟨x, hx, rfl⟩
    rw [e] at hx'
    revert hx'
    decide
  · intro n d a h
    by_cases hb : a.castableBases = []
    · rw [hb]; exact List.nodup_nil
    · rw [(hs n d a h hb).2]; exact List.nodup_singleton _
  · intro n d a n' d' a' h h' hne _ b hb b' hb'
    exact absurd ((hs n d a h (List.ne_nil_of_mem hb)).1.trans (hs n' d' a' h' (List.ne_nil_of_mem hb')).1.symm) hne

end Verif
