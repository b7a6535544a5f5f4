import Verif.FnPassTotalProps
import Verif.PipelineProps

/-!
# The passes after POD analysis do not panic

engine/src/conversion/mod.rs:139-181.
-/

set_option autoImplicit false

namespace Verif
open ApiVec

/-- The texts which the check of names takes for identifiers. -/
def Api.emits {T S F : Type} : Api T S F → List String
  | .typedef n .. | .forwardDeclaration n _ | .opaqueTypedef n _ | .const n _ | .enum n _
  | .struct n .. => n.name.ns ++ [n.name.name] ++
      (n.cppName.map fun c => (QName.ofCppName c).ns ++ [(QName.ofCppName c).name]).getD []
  | .subclass n sup => n.name.ns ++ [n.name.name] ++ (sup.ns ++ [sup.name])
  | .function n _ _ => n.name.ns ++ [n.name.name]
  | _ => []

theorem emits_eq (a : FnApi) : emittedIdents a = a.emits := by cases a <;> rfl

theorem emits_map {T S F T' S' F' : Type} (ft : T → T') (fs : S → S') (ff : F → F') (a : Api T S F) :
    (a.mapAnalysis ft fs ff).emits = a.emits := by cases a <;> rfl

theorem emits_dup {T S F : Type} {a : Api T S F} (h : a.IsDup) : a.emits = [] := by rw [h]; rfl

/-- The last part of the C++ name of a class or enumeration nested in another. -/
def NestedAs {T S F : Type} (apis : List (Api T S F)) (q : QName) (x : String) : Prop :=
  ∃ n, n.name = q ∧ ((∃ d a, .struct n d a ∈ apis) ∨ ∃ i, .enum n i ∈ apis) ∧ finalSegment n.effectiveCppName = some x

/-- The map agrees with the names of nested classes. -/
def NestedOf {T S F : Type} (apis : List (Api T S F)) (nested : AMap QName String) : Prop :=
  ∀ q x, AMap.get? nested q = some x → NestedAs apis q x

/-- The items, as POD analysis gives them. -/
structure PodItems (hash : Config → Nat) (cfg : Config) (apis : List PodApi) : Prop where
  /-- It was said what to generate. -/
  allow : ∀ n, cfg.isOnAllowlist hash n ≠ none
  names : ∀ x ∈ apis, x.name.ns = [] → ∀ c, x.nameInfo.cppName = some c → leadsWell c.toList = true ∧ c ≠ "Pin"
  emits : ∀ x ∈ apis, x.isFn = false → ∀ s ∈ x.emits, isIdentText s = true
  typedefs : ∀ n i o a, .typedef n i o a ∈ apis → GoodTy a.target ∧ TopOk a.target ∧ PinFit a.target
  concretes : ∀ n r c, .concreteType n r c ∈ apis → (GoodQ n.name ∧ ¬ IsPin n.name) ∧ ∀ t, r = some t → GoodTy t
  nested : ∀ q x, NestedAs apis q x → GoodName x ∧ x ≠ "Pin"
  subs : ∀ n sup, .subclass n sup ∈ apis → GoodQ n.name
  nosub : ∀ x ∈ apis, NoSub x
  fns : ∀ n f u, .function n f u ∈ apis → ∀ nested, NestedOf apis nested → GoodFn nested n f ∧ FnShape nested n f
  classes : ∀ n d a, .struct n d a ∈ apis → GoodQ n.name ∧ ¬ IsPin n.name ∧ (∀ f ∈ a.fieldInfo, ¬ NamelessField f) ∧
    (∀ b ∈ a.castableBases, GoodQ b ∧ ¬ IsPin b) ∧ a.kind ≠ .abstract
  /-- No class holds itself or derives from itself, be it through others. -/
  finite : ∃ depth : QName → Nat, ∀ n d a, .struct n d a ∈ apis →
    ∀ q ∈ a.fieldDefinitionDeps ++ a.bases, depth q < depth n.name

/-- What the passes before the function analysis put in the place of an item, or add. -/
inductive Derived (apis : List PodApi) : PodApi → Prop
  | same {x : PodApi} (h : x ∈ apis) : Derived apis x
  | ignored {n : ApiName} {e : Err} {c : Option ErrorContext} (h : n.cppName = none ∨ ∃ y ∈ apis, y.nameInfo = n) :
      Derived apis (.ignoredItem n e c)
  | opaqueDef {n : ApiName} {f : Bool} {i : TypedefItem} {o : Option QName} {a : TypedefAnalysis}
      (h : .typedef n i o a ∈ apis) : Derived apis (.opaqueTypedef n f)
  | made {n : ApiName} {f : FuncToConvert} {u : Unit} (hn : n.cppName = none)
      (h : ∀ nested, GoodFn nested n f ∧ FnShape nested n f) : Derived apis (.function n f u)

theorem PodItems.derived {hash : Config → Nat} {cfg : Config} {apis l : List PodApi} (h : PodItems hash cfg apis)
    (hl : ∀ x ∈ l, Derived apis x) : PodItems hash cfg l := by
  have hst : ∀ n d a, .struct n d a ∈ l → .struct n d a ∈ apis := by
    intro n d a hx; cases hl _ hx; assumption
  have hnest : ∀ q x, NestedAs l q x → NestedAs apis q x := by
    rintro q x ⟨n, e, ⟨d, a, hx⟩ | ⟨i, hx⟩, hf⟩
    · exact ⟨n, e, .inl ⟨d, a, hst _ _ _ hx⟩, hf⟩
    · refine ⟨n, e, .inr ⟨i, ?_⟩, hf⟩
      cases hl _ hx; assumption
  refine ⟨h.allow, ?_, ?_, ?_, ?_, fun q x hx => h.nested q x (hnest q x hx), ?_, ?_, ?_,
    fun n d a hx => h.classes n d a (hst _ _ _ hx), ?_⟩
  · intro x hx hns c hc
    cases hl x hx with
    | same h' => exact h.names x h' hns c hc
    | ignored h' =>
      rename_i n e c'
      rcases h' with h' | ⟨y, hy, he⟩
      · simp only [Api.nameInfo, h'] at hc; cases hc
      · refine h.names y hy ?_ c ?_
        · rw [Api.name, he]; exact hns
        · rw [he]; exact hc
    | opaqueDef h' => exact h.names _ h' hns c hc
    | made hn' _ => simp only [Api.nameInfo, hn'] at hc; cases hc
  · intro x hx hf s hs
    cases hl x hx with
    | same h' => exact h.emits x h' hf s hs
    | ignored h' => cases hs
    | opaqueDef h' => exact h.emits _ h' rfl s hs
    | made hn' _ => cases hf
  · intro n i o a hx
    cases hl _ hx with
    | same h' => exact h.typedefs _ _ _ _ h'
  · intro n r c hx
    cases hl _ hx with
    | same h' => exact h.concretes _ _ _ h'
  · intro n sup hx
    cases hl _ hx with
    | same h' => exact h.subs _ _ h'
  · intro x hx
    cases hl _ hx with
    | same h' => exact h.nosub _ h'
    | _ => trivial
  · intro n f u hx nested hn
    cases hl _ hx with
    | same h' => exact h.fns _ _ _ h' nested fun q x hq => hnest q x (hn q x hq)
    | made _ h' => exact h' nested
  · obtain ⟨depth, hd⟩ := h.finite
    exact ⟨depth, fun n d a hx => hd n d a (hst _ _ _ hx)⟩

theorem PodItems.fromIter {hash : Config → Nat} {cfg : Config} {apis l : List PodApi} (h : PodItems hash cfg apis)
    (hl : ∀ x ∈ l, Derived apis x) : PodItems hash cfg (ApiVec.fromIter l).apis := by
  refine h.derived fun x hx => ?_
  rcases extend_mem_cases _ inv_empty hx with hx | hx | ⟨q, rfl⟩
  · cases hx
  · exact hl x hx
  · exact .ignored (.inl rfl)

/-! ### What the passes make -/

theorem hopeless_good {hash : Config → Nat} {cfg : Config} {apis : ApiVec TypedefAnalysis PodAnalysis Unit}
    (h : PodItems hash cfg apis.apis) : PodItems hash cfg (replaceHopelessTypedefTargets cfg apis).apis := by
  refine h.fromIter fun x hx => ?_
  obtain ⟨y, hy, rfl⟩ := List.mem_map.1 hx
  unfold replaceHopeless
  split
  · split
    · split
      · exact .ignored (.inr ⟨_, hy, rfl⟩)
      · exact .opaqueDef hy
    · split
      · exact .opaqueDef hy
      · exact .same hy
  · exact .ignored (.inr ⟨_, hy, rfl⟩)
  · exact .same hy

theorem goodQ_ns {q : QName} (h : GoodQ q) : ∀ x ∈ q.ns, GoodName x := fun x hx => h x (by simp [QName.segs, hx])

theorem goodQ_name {q : QName} (h : GoodQ q) : GoodName q.name := h _ (by simp [QName.segs])

theorem cast_good {derived base : QName} (h : GoodQ derived ∧ ¬ IsPin derived) (hb : GoodQ base ∧ ¬ IsPin base)
    {apis : List PodApi} : Derived apis (createCast derived base) := by
  have hid : isIdentText (nameForCast derived base).name = true := by
    rw [nameForCast]
    refine ident_append (ident_append (ident_append (by decide) (ident_chars (goodQ_name h.1).1)) (by decide))
      (ident_chars (goodQ_name hb.1).1)
  refine .made rfl fun nested => ⟨⟨fun x hx => goodQ_ns h.1 x hx, hid, (fun c h => by cases h), ?_, ?_, ?_, ?_, ?_, ?_, ?_, ?_⟩, ?_, ?_, ?_,
      cppNamed_none rfl, ?_, (fun sub tr impl h => by cases h)⟩
  · intro i hi
    rw [List.mem_singleton.1 hi]
    exact .typed (by decide) (.ptr (toTypePath_good h.1 h.2 (by simp))) (.ptr (.path (by simp)))
  · intro t ht
    cases ht
    exact marker_good (.ptr (toTypePath_good hb.1 hb.2 (by simp)))
  · intro q hq; cases hq; exact (goodQ_name h.1).1
  · intro q hq; cases hq
  · intro q m _ h; cases h
  · rintro q (h | h) <;> cases h
  · intro q _ hno; exact absurd List.mem_cons_self (hno _)
  · intro h; cases h
  · intro _; exact ⟨_, _, _, rfl⟩
  · intro h; cases h
  · rintro (h | h | h) <;> cases h
  · intro b k e ns id hb; cases e; cases hb

theorem alloc_good {q : QName} (h : GoodQ q ∧ ¬ IsPin q) {apis : List PodApi} :
    ∀ x ∈ createAllocAndFree q, Derived apis x := by
  intro x hx
  simp only [createAllocAndFree, List.mem_cons, List.not_mem_nil, or_false] at hx
  have ht : GoodTy (.ptr true (.path q.toTypePath [])) := .ptr (toTypePath_good h.1 h.2 (by simp))
  rcases hx with rfl | rfl
  · refine .made rfl fun nested => ⟨⟨fun x hx => goodQ_ns h.1 x hx, ?_, (fun c h => by cases h), ?_, ?_, ?_, ?_, ?_, ?_, ?_, ?_⟩, ?_, ?_, ?_,
      cppNamed_none rfl, ?_, (fun sub tr impl h => by cases h)⟩
    · exact ident_append (goodQ_name h.1).1 (by decide)
    · intro i hi; cases hi
    · intro t e; cases e; exact ht
    · intro q hq; cases hq
    · intro q hq; cases hq
    · intro q m h; cases h
    · rintro q (e | e) <;> cases e; exact (goodQ_name h.1).1
    · intro q hq; cases hq
    · intro h; cases h
    · rintro ⟨t, ht⟩; cases ht
    · intro h; cases h
    · rintro (h | h | h) <;> cases h
    · intro b k e ns id hb; cases e; cases hb
  · refine .made rfl fun nested => ⟨⟨fun x hx => goodQ_ns h.1 x hx, ?_, (fun c h => by cases h), ?_, ?_, ?_, ?_, ?_, ?_, ?_, ?_⟩, ?_, ?_, ?_,
      cppNamed_none rfl, ?_, (fun sub tr impl h => by cases h)⟩
    · exact ident_append (goodQ_name h.1).1 (by decide)
    · intro i hi
      rw [List.mem_singleton.1 hi]
      exact .typed (by decide) ht (.ptr (.path (by simp)))
    · intro t e; cases e
    · intro q hq; cases hq
    · intro q hq; cases hq
    · intro q m h; cases h
    · rintro q (e | e) <;> cases e; exact (goodQ_name h.1).1
    · intro q hq; cases hq
    · intro h; cases h
    · rintro ⟨t, ht⟩
      simp at ht
    · intro h; cases h
    · rintro (h | h | h) <;> cases h
    · intro b k e ns id hb; cases e; cases hb

theorem casts_good {hash : Config → Nat} {cfg : Config} {apis : ApiVec TypedefAnalysis PodAnalysis Unit}
    (h : PodItems hash cfg apis.apis) : PodItems hash cfg (addCasts apis).apis := by
  refine h.fromIter fun x hx => ?_
  obtain ⟨y, hy, hx⟩ := List.mem_flatMap.1 hx
  split at hx
  · rename_i n d an
    obtain ⟨h1, h2, -, h3, -⟩ := h.classes _ _ _ hy
    rcases List.mem_append.1 hx with hx | hx
    · obtain ⟨b, hb, rfl⟩ := List.mem_map.1 hx
      exact cast_good ⟨h1, h2⟩ (h3 b hb)
    · rw [List.mem_singleton.1 hx]; exact .same hy
  · rw [List.mem_singleton.1 hx]; exact .same hy

theorem allocs_good {hash : Config → Nat} {cfg : Config} {apis : ApiVec TypedefAnalysis PodAnalysis Unit}
    (h : PodItems hash cfg apis.apis) : PodItems hash cfg (createAllocAndFrees apis).apis := by
  refine h.fromIter fun x hx => ?_
  obtain ⟨y, hy, hx⟩ := List.mem_flatMap.1 hx
  split at hx
  · rename_i n d an
    obtain ⟨h1, h2, -, h3, -⟩ := h.classes _ _ _ hy
    rcases List.mem_append.1 hx with hx | hx
    · exact alloc_good ⟨h1, h2⟩ x hx
    · rw [List.mem_singleton.1 hx]; exact .same hy
  · rcases List.mem_append.1 hx with hx | hx
    · exact alloc_good (peer_good (h.subs _ _ hy)) x hx
    · rw [List.mem_singleton.1 hx]; exact .same hy
  · rw [List.mem_singleton.1 hx]; exact .same hy

theorem nestedNames_of (apis : List PodApi) : NestedOf apis (nestedNames apis) := by
  refine foldl_keeps (P := NestedOf apis) apis (fun q x h => by cases h) fun m hm y hy q x hq => ?_
  cases y with
  | struct n d a =>
    dsimp only at hq
    split at hq
    · rename_i z hz
      rw [AMap.get?_insert] at hq
      split at hq
      · rename_i e; cases hq; exact ⟨n, e, .inl ⟨d, a, hy⟩, hz⟩
      · exact hm q x hq
    · exact hm q x hq
  | enum n i =>
    dsimp only at hq
    split at hq
    · rename_i z hz
      rw [AMap.get?_insert] at hq
      split at hq
      · rename_i e; cases hq; exact ⟨n, e, .inr ⟨i, hy⟩, hz⟩
      · exact hm q x hq
    · exact hm q x hq
  | _ => exact hm q x hq

theorem PodItems.good {hash : Config → Nat} {cfg : Config} {apis : List PodApi} (h : PodItems hash cfg apis) :
    GoodPodApis hash cfg apis where
  allow := h.allow
  names := h.names
  typedefs := h.typedefs
  concretes := h.concretes
  nested n hn x hx := h.nested n.name x ⟨n, rfl, hn, hx⟩
  subs := h.subs
  traits := by
    rw [traitItems, List.filterMap_eq_nil_iff]
    intro x hx
    cases x with
    | subclassTraitItem n d => exact absurd (h.nosub _ hx) id
    | _ => rfl
  items := ⟨fun n f u hx => h.fns n f u hx _ (nestedNames_of apis),
    fun n d a hx => ⟨(h.classes n d a hx).1, (h.classes n d a hx).2.1, (h.classes n d a hx).2.2.1⟩, h.finite, h.nosub,
    h.names, fun n t c hx => (h.concretes n _ c hx).2 t rfl⟩

/-! ### After the function analysis -/

theorem not_stuck {apis : List PodApi} (hf : ∃ depth : QName → Nat, ∀ n d a, .struct n d a ∈ apis →
      ∀ q ∈ a.fieldDefinitionDeps ++ a.bases, depth q < depth n.name) {l : List FnPre2Api}
    (hl : ∀ n d a, .struct n d a ∈ l → .struct n d a.pod ∈ apis) {S : List FnPre2Api} (hS : ∀ a ∈ S, a ∈ l) :
    ¬ Stuck Api.name FnPre2Api.fieldAndBaseDeps S := by
  rintro ⟨hne, hst⟩
  obtain ⟨depth, hd⟩ := hf
  have key : ∀ k, ∀ x ∈ S, depth x.name < k → False := by
    intro k
    induction k with
    | zero => intro x hx hk; omega
    | succ k ih =>
      intro x hx hk
      obtain ⟨b, hbS, hb⟩ := hst x hx
      cases x with
      | struct n d a =>
        have := hd n d a.pod (hl _ _ _ (hS _ hx)) _ hb
        exact ih b hbS (by simp only [Api.name, Api.nameInfo] at *; omega)
      | _ => exact absurd hb (by simp [FnPre2Api.fieldAndBaseDeps])
  cases S with
  | nil => exact hne rfl
  | cons x S => exact key _ x List.mem_cons_self (Nat.lt_succ_self _)

theorem emits_of_fates {v : ApiVec TypedefAnalysis PodAndConstructorAnalysis FnAnalysis} {P : String → Prop}
    {l : List FnPre2Api} {keep : FnPre2Api → Bool} {m : ApiVec TypedefAnalysis PodAndConstructorAnalysis FnAnalysis}
    (hm : m.Inv) (h1 : All2 (AbstractFate l) (v.apis.filter keep) m.apis) (hv : ∀ x ∈ v.apis, ∀ s ∈ x.emits, P s) :
    ∀ y ∈ (discardIgnoredFunctions (decorateTypes m)).apis, ∀ s ∈ y.emits, P s := by
  intro y hy
  obtain ⟨b, hb, fc⟩ := (discard_ignored_functions_spec _ (fromIter_inv _)).right hy
  obtain ⟨a, ha, fb⟩ := (constructor_deps m hm).right hb
  obtain ⟨x, hx, fa⟩ := h1.right ha
  have hx := hv x (List.mem_filter.1 hx).1
  have h2 : ∀ s ∈ a.emits, P s := by
    cases fa with
    | marked => exact hx
    | nested => intro s hs; cases hs
    | unchanged => exact hx
  have h3 : ∀ s ∈ b.emits, P s := by
    cases fb with
    | none => exact h2
    | some => exact h2
    | other => rw [emits_map]; exact h2
  cases fc with
  | discarded => intro s hs; cases hs
  | kept => exact h3
  | other => exact h3

/-- **C71 (analysis)**: from the result of POD analysis to the garbage collector, nothing panics. -/
theorem analysis_safe {fuel : Nat} {hash : Config → Nat} {policy : UnsafePolicy} {cfg : Config} {force : Bool}
    {apis : ApiVec TypedefAnalysis PodAnalysis Unit} (h : PodItems hash cfg apis.apis) :
    Safe (fun out => gc hash cfg out ≠ none) (analysisPasses fuel hash policy cfg force apis) := by
  have h3 := allocs_good (casts_good (hopeless_good h))
  rw [analysisPasses]
  dsimp only
  generalize createAllocAndFrees _ = v at h3
  refine Safe.bind (function_pass_safe h3.good) fun fns e hfn => ?_
  obtain ⟨q⟩ := pass_stages e h3.good.traits
  have hstruct : ∀ n d a, .struct n d a ∈ fns.apis → .struct n d a.pod ∈ v.apis := by
    intro n d a hx
    have ho := items_from q hx
    generalize hb : Api.struct n d a = b at ho
    cases ho with
    | @kept x hx' =>
      cases x with
      | struct => cases hb; exact hx'
      | _ => cases hb
    | marker hm => subst hb; cases hm
    | override_ => cases hb
    | trait_ => cases hb
    | fn => cases hb
    | inst => cases hb
  have hemits : ∀ x ∈ fns.apis, ∀ s ∈ x.emits, isIdentText s = true := by
    intro x hx
    have ho := items_from q hx
    cases ho with
    | @kept y hy hf => rw [emits_map]; exact h3.emits y hy hf
    | marker hm => rw [emits_dup hm]; intro s hs; cases hs
    | override_ => intro s hs; cases hs
    | trait_ => intro s hs; cases hs
    | fn => exact (hfn _ hx).2.2
    | inst => intro s hs; cases hs
  rcases abstract_classes_partial fns q.held.inv (fun n d a hx => (h3.classes _ _ _ (hstruct n d a hx)).2.2.2.2) with
    ⟨m, hm, hmi, keep, -, hf⟩ | ⟨-, S, hS, hst⟩
  · rw [hm]
    change Safe _ ((PassRun.ofOption (checkNames (discardIgnoredFunctions (decorateTypes m)))).bind _)
    cases hc : checkNames (discardIgnoredFunctions (decorateTypes m)) with
    | none =>
      obtain ⟨a, ha, s, hs, hbad⟩ := check_names_panic _ hc
      rw [emits_eq] at hs
      rw [emits_of_fates hmi hf hemits a ha s hs] at hbad
      cases hbad
    | some w =>
      refine .done ?_
      rw [Ne, gc_panics_iff]
      rintro ⟨a, -, ha⟩
      exact h.allow _ ha
  · exact absurd hst (not_stuck h3.finite hstruct hS)

end Verif
