import Verif.AnalysisTotalProps
import Verif.PodPassMore

/-!
# The passes up to POD analysis do not panic

engine/src/conversion/mod.rs:125-138.
-/

set_option autoImplicit false

namespace Verif
open ApiVec

/-- The items, as the parser finds them. -/
structure FoundItems (hash : Config → Nat) (cfg : Config) (apis : List NullApi) : Prop where
  /-- It was said what to generate. -/
  allow : ∀ n, cfg.isOnAllowlist hash n ≠ none
  names : ∀ x ∈ apis, x.name.ns = [] → ∀ c, x.nameInfo.cppName = some c → leadsWell c.toList = true ∧ c ≠ "Pin"
  emits : ∀ x ∈ apis, x.isFn = false → ∀ s ∈ x.emits, isIdentText s = true
  typedefs : ∀ n i o u, .typedef n i o u ∈ apis → GoodQ n.name ∧ GoodTy i.ty ∧ NoRef i.ty ∧ PinFit i.ty
  concretes : ∀ n r c, .concreteType n r c ∈ apis → (GoodQ n.name ∧ ¬ IsPin n.name) ∧ ∀ t, r = some t → GoodTy t
  nested : ∀ q x, NestedAs apis q x → GoodName x ∧ x ≠ "Pin"
  subs : ∀ n sup, .subclass n sup ∈ apis → GoodQ n.name
  nosub : ∀ x ∈ apis, NoSub x
  fns : ∀ n f u, .function n f u ∈ apis → ∀ nested, NestedOf apis nested → GoodFn nested n f ∧ FnShape nested n f
  classes : ∀ n d u, .struct n d u ∈ apis → GoodQ n.name ∧ ¬ IsPin n.name ∧ (∀ f ∈ d.fields, GoodTy f.2.2) ∧
    ∀ f ∈ d.fields, ∀ q v, IsBaseField f q v → ¬ IsPin q

/-- What the typedef and POD passes put in the place of an item, or add. -/
inductive Carried (apis : List NullApi) : NullApi → Prop
  | same {x : NullApi} (h : x ∈ apis) : Carried apis x
  | ignored {n : ApiName} {e : Err} {c : Option ErrorContext} (h : n.cppName = none ∨ ∃ y ∈ apis, y.nameInfo = n) :
      Carried apis (.ignoredItem n e c)
  | inst {n : ApiName} {r : Option Ty} {c : String} (hn : n.cppName = none)
      (h : (GoodQ n.name ∧ ¬ IsPin n.name) ∧ ∀ t, r = some t → GoodTy t) : Carried apis (.concreteType n r c)

theorem FoundItems.carried {hash : Config → Nat} {cfg : Config} {apis l : List NullApi} (h : FoundItems hash cfg apis)
    (hl : ∀ x ∈ l, Carried apis x) : FoundItems hash cfg l := by
  have hst : ∀ n d a, .struct n d a ∈ l → .struct n d a ∈ apis := by
    intro n d a hx; cases hl _ hx; assumption
  have hnest : ∀ q x, NestedAs l q x → NestedAs apis q x := by
    rintro q x ⟨n, e, ⟨d, a, hx⟩ | ⟨i, hx⟩, hf⟩
    · exact ⟨n, e, .inl ⟨d, a, hst _ _ _ hx⟩, hf⟩
    · refine ⟨n, e, .inr ⟨i, ?_⟩, hf⟩
      cases hl _ hx; assumption
  refine ⟨h.allow, ?_, ?_, ?_, ?_, fun q x hx => h.nested q x (hnest q x hx), ?_, ?_, ?_,
    fun n d a hx => h.classes n d a (hst _ _ _ hx)⟩
  · intro x hx hns c hc
    cases hl x hx with
    | same h' => exact h.names x h' hns c hc
    | ignored h' =>
      rename_i n e c'
      rcases h' with h' | ⟨y, hy, he⟩
      · simp only [Api.nameInfo, h'] at hc; cases hc
      · refine h.names y hy ?_ c ?_
        · rw [Api.name, he]; exact hns
        · rw [he]; exact hc
    | inst hn' _ => simp only [Api.nameInfo, hn'] at hc; cases hc
  · intro x hx hf s hs
    cases hl x hx with
    | same h' => exact h.emits x h' hf s hs
    | ignored h' => cases hs
    | inst => cases hs
  · intro n i o a hx
    cases hl _ hx with
    | same h' => exact h.typedefs _ _ _ _ h'
  · intro n r c hx
    cases hl _ hx with
    | same h' => exact h.concretes _ _ _ h'
    | inst _ h' => exact h'
  · intro n sup hx
    cases hl _ hx with
    | same h' => exact h.subs _ _ h'
  · intro x hx
    cases hl _ hx with
    | same h' => exact h.nosub _ h'
    | _ => trivial
  · intro n f u hx nested hn
    cases hl _ hx with
    | same h' => exact h.fns _ _ _ h' nested fun q x hq => hnest q x (hn q x hq)

/-! ### Running a pass -/

theorem runPass_safe {σ T S F T' S' F' : Type}
    {f : σ → Api T S F → σ × PassRun (Except ErrWithCtx (List (Api T' S' F')))} {I : σ → Prop} {Q : Api T' S' F' → Prop} :
    ∀ (l : List (Api T S F)), (∀ a ∈ l, ∀ s, I s → (f s a).2 ≠ .panic ∧
      ∀ s' r, f s a = (s', .done r) → I s' ∧ ∀ x ∈ apiOrError a.nameInfo r, Q x) → ∀ s, I s →
    (runPass f s l).2 ≠ .panic ∧ ∀ s' m, runPass f s l = (s', .done m) → I s' ∧ ∀ x ∈ m, Q x
  | [], _, s, hs => by
    refine ⟨fun h => ?_, fun s' m h => ?_⟩
    · cases h
    · cases h; exact ⟨hs, fun x hx => by cases hx⟩
  | a :: l, h, s, hs => by
    obtain ⟨h1, h2⟩ := h a List.mem_cons_self s hs
    rw [runPass]
    cases hf : f s a with
    | mk s1 r =>
      rw [hf] at h1
      cases r with
      | panic => exact absurd rfl h1
      | diverges => exact ⟨(fun h => by cases h), (fun s' m h => by cases h)⟩
      | done r =>
        obtain ⟨hi, hq⟩ := h2 s1 r hf
        obtain ⟨h3, h4⟩ := runPass_safe l (fun a ha => h a (List.mem_cons_of_mem _ ha)) s1 hi
        dsimp only
        cases hr : runPass f s1 l with
        | mk s2 r2 =>
          rw [hr] at h3
          cases r2 with
          | panic => exact absurd rfl h3
          | diverges => exact ⟨(fun h => by cases h), (fun s' m h => by cases h)⟩
          | done m =>
            obtain ⟨h5, h6⟩ := h4 s2 m hr
            refine ⟨(fun h => by cases h), fun s' m' h => ?_⟩
            cases h
            refine ⟨h5, fun x hx => ?_⟩
            rcases List.mem_append.1 hx with hx | hx
            · exact hq x hx
            · exact h6 x hx

/-- What is known between two items. -/
structure GoodPassState (s : PassState) : Prop where
  concretes : GoodSt s.concretes
  inv : s.extra.Inv
  extra : ∀ n r c, .concreteType n r c ∈ s.extra.apis → (GoodQ n.name ∧ ¬ IsPin n.name) ∧ ∀ t, r = some t → GoodTy t

theorem GoodPassState.ext {s : PassState} (h : GoodPassState s) {st : Concretes} (hst : GoodSt st) {a : Annotated Ty}
    (ha : GoodConv a) : GoodPassState { concretes := st, extra := s.extra.extend a.extra } := by
  refine ⟨hst, extend_inv h.inv _, fun n r c hn => ?_⟩
  rcases extend_mem_cases _ h.inv hn with hn | hn | ⟨q, e⟩
  · exact h.extra n r c hn
  · exact ⟨(ha.2 _ hn).1, fun t ht => (ha.2 _ hn).2 n t c (by rw [ht])⟩
  · cases e

theorem map_good {T S F : Type} {apis : List (Api T S F)} (h : ∀ x ∈ apis, x.name.ns = [] →
    ∀ c, x.nameInfo.cppName = some c → leadsWell c.toList = true ∧ c ≠ "Pin") : GoodMap (CppNameMap.ofApis apis) := by
  intro q c hq hns
  refine foldl_keeps (P := fun m => ∀ q c, AMap.get? m q = some c → q.ns = [] → leadsWell c.toList = true ∧ c ≠ "Pin")
    apis (fun q c h => by cases h) (fun m hm x hx q c hq hns => ?_) q c hq hns
  split at hq
  · rename_i c' hc'
    rw [AMap.get?_insert] at hq
    split at hq
    · rename_i hxe
      cases hq
      exact h x hx (by rw [hxe]; exact hns) _ hc'
    · exact hm q c hq hns
  · exact hm q c hq hns

theorem typedefs_good {T S F : Type} {target : T → Option Ty} {P : Ty → Prop} {apis : List (Api T S F)}
    (h : ∀ n i o a t, .typedef n i o a ∈ apis → target a = some t → P t) :
    ∀ q t, AMap.get? (findTypedefs target apis) q = some t → P t := by
  intro q t hq
  refine foldl_keeps (P := fun m => ∀ q t, AMap.get? m q = some t → P t)
    apis (fun q c h => by cases h) (fun m hm x hx q c hq => ?_) q t hq
  cases x with
  | typedef n i o a =>
    dsimp only at hq
    split at hq
    · rename_i t' ht'
      rw [AMap.get?_insert] at hq
      split at hq
      · cases hq; exact h _ _ _ _ _ hx ht'
      · exact hm q c hq
    · exact hm q c hq
  | _ => exact hm q c hq

theorem concretes_good {T S F : Type} {apis : List (Api T S F)}
    (h : ∀ n r c, .concreteType n r c ∈ apis → (GoodQ n.name ∧ ¬ IsPin n.name) ∧ ∀ t, r = some t → GoodTy t) :
    GoodSt (findConcretes apis) := by
  refine foldl_keeps (P := fun m : Concretes => ∀ e ∈ m, GoodQ e.2 ∧ ¬ IsPin e.2)
    apis (fun e h => by cases h) (fun m hm x hx e he => ?_)
  cases x with
  | concreteType n r c =>
    dsimp only at he
    rcases mem_insert_cases he with he | he
    · exact hm e he
    · rw [he]; exact (h n r c hx).1
  | _ => exact hm e he

theorem shape_nameInfo {T S F : Type} (a : Api T S F) : a.shape.nameInfo = a.nameInfo := by cases a <;> rfl

theorem shape_ignored {T S F : Type} {n : ApiName} {e : Err} {c : Option ErrorContext} :
    (.ignoredItem n e c : Api T S F).shape = .ignoredItem n e c := rfl

/-- The instantiations which a pass met. -/
theorem extra_carried {s : PassState} (h : GoodPassState s) (hx : ∀ x ∈ s.extra.apis, IsInstantiation x ∨ x.IsDup)
    {apis : List NullApi} : ∀ x ∈ s.extra.apis, Carried apis x := by
  intro x hm
  rcases hx x hm with ⟨id, rs, cpp, rfl⟩ | hd
  · exact .inst rfl (h.extra _ _ _ hm)
  · rw [hd]; exact .ignored (.inl rfl)

/-- What a pass gives, as shapes. -/
theorem pass_carried {T S F : Type} {ft : Unit → T} {fs : Unit → S} {ff : Unit → F} {apis : List NullApi}
    {out : List (Api T S F)} {extra : List NullApi} (ho : ∀ x ∈ out, Carried apis x.shape)
    (he : ∀ x ∈ extra, Carried apis x) :
    ∀ x ∈ ((ApiVec.fromIter out).extend (extra.map (Api.mapAnalysis ft fs ff))).apis, Carried apis x.shape := by
  intro x hx
  rcases extend_mem_cases _ (fromIter_inv _) hx with hx | hx | ⟨q, rfl⟩
  · rcases extend_mem_cases _ inv_empty hx with hx | hx | ⟨q, rfl⟩
    · cases hx
    · exact ho x hx
    · exact .ignored (.inl rfl)
  · obtain ⟨y, hy, rfl⟩ := List.mem_map.1 hx
    rw [shape_map]
    have : y.shape = y := by cases y <;> rfl
    rw [this]
    exact he y hy
  · exact .ignored (.inl rfl)

/-! ### Typedefs -/

/-- Typedefs once their targets are converted. -/
def TargetsOk {S F : Type} (apis : List (Api TypedefAnalysis S F)) : Prop :=
  ∀ n i o a, .typedef n i o a ∈ apis → GoodTy a.target ∧ TopOk a.target ∧ PinFit a.target

theorem noRef_top {t : Ty} (h : NoRef t) : TopOk t := by
  intro lt e he
  subst he
  cases h

theorem tdefStep_safe {env : ConvEnv} (he : GoodEnv env) (ht : ∀ q t, AMap.get? env.typedefs q = some t → TopOk t)
    (hp : ∀ q t, AMap.get? env.typedefs q = some t → PinFit t)
    {fuel : Nat} {attrs : Attrs} {a : NullApi}
    (ha : ∀ n i o u, a = .typedef n i o u → GoodQ n.name ∧ GoodTy i.ty ∧ NoRef i.ty ∧ PinFit i.ty) {s : PassState} (hs : GoodPassState s)
    {apis : List NullApi} (hmem : a ∈ apis) :
    (tdefStep env fuel attrs s a).2 ≠ .panic ∧ ∀ s' r, tdefStep env fuel attrs s a = (s', .done r) →
      GoodPassState s' ∧ ∀ x ∈ apiOrError a.nameInfo r, Carried apis x.shape ∧
        ∀ n i o an, x = .typedef n i o an → GoodTy an.target ∧ TopOk an.target ∧ PinFit an.target := by
  refine ⟨?_, fun s' r h => ?_⟩
  · cases a with
    | typedef n i o u =>
      rw [tdefStep]
      obtain ⟨hq, hg, hr, -⟩ := ha n i o u rfl
      split
      · exact fun h => by cases h
      · have key : (getReplacementTypedef env fuel attrs s n i o).2 ≠ .panic := by
          rw [getReplacementTypedef]
          split
          · exact fun h => by cases h
          · split
            · exact fun h => by cases h
            · obtain ⟨h1, h2, h3⟩ := convert_fine he (goodQ_ns hq) fuel .withinReference s.concretes i.ty hs.concretes hg
              cases hc : convertType env n.name.ns fuel .withinReference s.concretes i.ty with
              | mk st r =>
                rw [hc] at h2 h3
                dsimp only
                cases r with
                | panic => exact absurd rfl h2
                | outOfFuel => exact fun h => by cases h
                | err e => exact fun h => by cases h
                | ok b =>
                  dsimp only [CRes.toRun]
                  have hb := (h3 b rfl).1
                  split
                  · rename_i segs args e
                    rw [e] at hb
                    obtain ⟨q, hq, -⟩ := goodTy_path hb
                    rw [hq]
                    dsimp only
                    split <;> exact fun h => by cases h
                  · exact fun h => by cases h
        cases hgr : getReplacementTypedef env fuel attrs s n i o with
        | mk s1 r =>
          rw [hgr] at key
          cases r with
          | panic => exact absurd rfl key
          | diverges => exact fun h => by cases h
          | done r => cases r <;> exact fun h => by cases h
    | _ => exact fun h => by cases h
  · obtain ⟨b, hb, hf⟩ := tdefStep_fate h
    rw [hb]
    have one : ∀ {P : TypedefApi → Prop}, P b → ∀ x ∈ [b], P x := fun hp x hx => by rw [List.mem_singleton.1 hx]; exact hp
    cases hf with
    | other hno =>
      refine ⟨hs, one ⟨?_, ?_⟩⟩
      · rw [shape_map]
        have : a.shape = a := by cases a <;> rfl
        rw [this]
        exact .same hmem
      · intro n i o an e
        cases a with
        | typedef n i o u => exact absurd rfl (hno n i o u)
        | _ => cases e
    | use hu =>
      refine ⟨hs, one ⟨.same hmem, ?_⟩⟩
      intro n i o an e
      cases e
      obtain ⟨-, hg, hr, hpf⟩ := ha _ _ _ _ rfl
      exact ⟨hg, noRef_top hr, hpf⟩
    | refused hu hw =>
      obtain ⟨hq, hg, hr, -⟩ := ha _ _ _ _ rfl
      refine ⟨⟨?_, hs.inv, hs.extra⟩, one ⟨.ignored (.inr ⟨_, hmem, rfl⟩), fun n i o an e => by cases e⟩⟩
      have hcv := fun {st' r} (hc : convertType env _ fuel .withinReference s.concretes _ = (st', r)) => by
        have := (convert_fine he (goodQ_ns hq) fuel .withinReference s.concretes _ hs.concretes hg).1
        rw [hc] at this
        exact this
      cases hw with
      | generic => exact hs.concretes
      | unusedParam => exact hs.concretes
      | notPublic => exact hs.concretes
      | target _ _ _ hc => exact hcv hc
      | toItself _ _ _ hc => exact hcv hc
    | kept hu hw =>
      obtain ⟨hq, hg, hr, -⟩ := ha _ _ _ _ rfl
      have hfine := convert_fine he (goodQ_ns hq) fuel .withinReference s.concretes _ hs.concretes hg
      rw [hw.converted] at hfine
      refine ⟨hs.ext hfine.1 (hfine.2.2 _ rfl), one ⟨.same hmem, ?_⟩⟩
      intro n i o an e
      cases e
      exact ⟨(hfine.2.2 _ rfl).1, convert_top ht _ _ _ _ _ _ hr hw.converted,
        convert_pinfit he hp (goodQ_ns hq) _ hs.concretes hg hw.converted⟩

/-- **C71 (typedefs)**: the conversion of typedefs does not panic. -/
theorem typedef_pass_safe {fuel : Nat} {hash : Config → Nat} {cfg : Config} {attrs : Attrs} {apis : ApiVec Unit Unit Unit}
    (h : FoundItems hash cfg apis.apis) :
    Safe (fun v => FoundItems hash cfg (v.apis.map Api.shape) ∧ TargetsOk v.apis)
      (convertTypedefTargets fuel cfg attrs apis) := by
  have hne : ∀ q t, AMap.get? (findTypedefs (fun _ : Unit => none) apis.apis) q ≠ some t := by
    intro q t; rw [findTypedefs_none]; exact fun h => by cases h
  have henv : GoodEnv (ConvEnv.ofApis (fun _ => none) cfg apis.apis).1 :=
    ⟨map_good h.names, fun q t hq => absurd hq (hne q t)⟩
  have hs0 : GoodPassState { concretes := (ConvEnv.ofApis (fun _ : Unit => none) cfg apis.apis).2 } :=
    ⟨concretes_good h.concretes, inv_empty, fun n r c hn => by cases hn⟩
  obtain ⟨h1, h2⟩ := runPass_safe (I := GoodPassState)
    (Q := fun x : TypedefApi => Carried apis.apis x.shape ∧
      ∀ n i o an, x = .typedef n i o an → GoodTy an.target ∧ TopOk an.target ∧ PinFit an.target) apis.apis
    (fun a ha s hs => tdefStep_safe (fuel := fuel) (attrs := attrs) henv (fun q t hq => absurd hq (hne q t))
      (fun q t hq => absurd hq (hne q t))
      (fun n i o u e => h.typedefs n i o u (e ▸ ha)) hs ha) _ hs0
  have hall : ∀ v, convertTypedefTargets fuel cfg attrs apis = .done v →
      FoundItems hash cfg (v.apis.map Api.shape) ∧ TargetsOk v.apis := by
    intro v hv
    rw [convertTypedefTargets.eq_def] at hv
    dsimp only at hv
    cases hr : runPass (tdefStep (ConvEnv.ofApis (fun _ => none) cfg apis.apis).1 fuel attrs)
        { concretes := (ConvEnv.ofApis (fun _ => none) cfg apis.apis).2 } apis.apis with
    | mk s r =>
      rw [hr] at hv
      cases r with
      | panic => cases hv
      | diverges => cases hv
      | done out =>
        obtain ⟨hs, hq⟩ := h2 s out hr
        have ht := (runPass_done.1 hr).thread (R := TdefFate (tdefEnv cfg apis) fuel attrs)
          fun s a s' r h => tdefStep_fate h
        have hx : ExtraOk s := ht.keeps (fun s a s' b h => tdefFate_extra h) ⟨ApiVec.inv_empty, by simp⟩
        simp only [PassRun.bind] at hv
        rw [addAnalyses_ok (fun _ => {}) id id _ hx.2] at hv
        cases hv
        refine ⟨h.carried fun x hx' => ?_, ?_⟩
        · obtain ⟨y, hy, rfl⟩ := List.mem_map.1 hx'
          exact pass_carried (fun x hx => (hq x hx).1) (extra_carried hs hx.2) y hy
        · intro n i o a hm
          rcases extend_mem_cases _ (fromIter_inv _) hm with hm | hm | ⟨q, e⟩
          · rcases extend_mem_cases _ inv_empty hm with hm | hm | ⟨q, e⟩
            · cases hm
            · exact (hq _ hm).2 _ _ _ _ rfl
            · cases e
          · obtain ⟨y, hy, e⟩ := List.mem_map.1 hm
            rcases hx.2 y hy with ⟨_, _, _, rfl⟩ | hd
            · cases e
            · rw [Api.IsDup] at hd; rw [hd] at e; cases e
          · cases e
  refine ⟨?_, hall⟩
  rw [convertTypedefTargets.eq_def]
  dsimp only
  cases hr : runPass (tdefStep (ConvEnv.ofApis (fun _ => none) cfg apis.apis).1 fuel attrs)
      { concretes := (ConvEnv.ofApis (fun _ => none) cfg apis.apis).2 } apis.apis with
  | mk s r =>
    rw [hr] at h1
    cases r with
    | panic => exact absurd rfl h1
    | diverges => exact fun h => by cases h
    | done out =>
      have ht := (runPass_done.1 hr).thread (R := TdefFate (tdefEnv cfg apis) fuel attrs)
        fun s a s' r h => tdefStep_fate h
      have hx : ExtraOk s := ht.keeps (fun s a s' b h => tdefFate_extra h) ⟨ApiVec.inv_empty, by simp⟩
      simp only [PassRun.bind]
      rw [addAnalyses_ok (fun _ => {}) id id _ hx.2]
      exact fun h => by cases h

/-! ### Types passed by value -/

theorem satisfy_not_panic (r : ByValue) (l : List QName) : satisfyRequests r l ≠ .panic := by
  fun_induction satisfyRequests r l <;> first | assumption | exact fun h => by cases h

theorem byValue_not_panic {apis : List TypedefApi} {cfg : Config} (hp : PathsOk apis) :
    byValueFromApis apis cfg ≠ .panic := by
  obtain ⟨rk, h1, _⟩ := by_value_new
  obtain ⟨rn, h2⟩ := nonStructs_total apis (ingestBlocklist rk cfg.blocklist) hp
  obtain ⟨r, h3⟩ := structs_total apis rn hp
  unfold byValueFromApis byValueIngest
  rw [h1, Option.bind_some, h2, Option.bind_some, h3]
  exact satisfy_not_panic _ _

theorem getBases_some {l : List (Ident × Bool × Ty)} (h : ∀ f ∈ l, GoodTy f.2.2) : getBases l ≠ none := by
  rw [getBases_eq]
  have : ∀ m : AMap QName Bool, l.foldl baseStep (some m) ≠ none := by
    induction l with
    | nil => exact fun m h => by cases h
    | cons f l ih =>
      intro m
      rw [List.foldl_cons]
      have hl := ih fun g hg => h g (List.mem_cons_of_mem _ hg)
      have key : ∃ m', baseStep (some m) f = some m' := by
        obtain ⟨id, vis, ty⟩ := f
        cases ty with
        | path segs args =>
          obtain ⟨q, hq, -⟩ := goodTy_path (h _ List.mem_cons_self)
          rw [baseStep]
          dsimp only
          rw [hq]
          split <;> exact ⟨_, rfl⟩
        | _ => exact ⟨_, rfl⟩
      obtain ⟨m', hm'⟩ := key
      rw [hm']
      exact hl m'
  exact this []

theorem castable_some {hash : Config → Nat} {cfg : Config} (h : ∀ n, cfg.isOnAllowlist hash n ≠ none) :
    ∀ m, castableBases hash cfg m ≠ none
  | [] => fun h => by cases h
  | (b, p) :: l => by
    have ih := castable_some h l
    rw [castableBases]
    obtain ⟨r, hr⟩ := Option.ne_none_iff_exists'.1 ih
    split
    · obtain ⟨x, hx⟩ := Option.ne_none_iff_exists'.1 (h b.toCppName)
      rw [hx, hr]
      exact fun h => by cases h
    · rw [hr]; exact fun h => by cases h

theorem fieldTypes_safe {env : ConvEnv} (he : GoodEnv env) {ns : List String} (hns : ∀ x ∈ ns, GoodName x) {fuel : Nat}
    {params : List Ident} : ∀ (l : List (Ident × Bool × Ty)) (s : PassState) (acc : Fields), GoodPassState s →
      (∀ f ∈ l, GoodTy f.2.2) → (fieldTypes env fuel ns params s acc l).2 ≠ .panic
  | [], s, acc, _, _ => fun h => by cases h
  | (id, vis, ty) :: l, s, acc, hs, hl => by
    have hl' : ∀ f ∈ l, GoodTy f.2.2 := fun f hf => hl f (List.mem_cons_of_mem _ hf)
    obtain ⟨h1, h2, h3⟩ := convert_fine he hns fuel (.withinStructField params) s.concretes ty hs.concretes
      (hl _ List.mem_cons_self)
    rw [fieldTypes]
    cases hc : convertType env ns fuel (.withinStructField params) s.concretes ty with
    | mk st r =>
      rw [hc] at h1 h2 h3
      dsimp only
      cases r with
      | panic => exact absurd rfl h2
      | outOfFuel => exact fun h => by cases h
      | err e => exact fieldTypes_safe he hns l _ _ ⟨h1, hs.inv, hs.extra⟩ hl'
      | ok a =>
        have hs' := hs.ext h1 (h3 a rfl)
        dsimp only [CRes.toRun]
        split
        · exact fieldTypes_safe he hns l _ _ hs' hl'
        · split
          · rename_i segs args e
            have hb := (h3 a rfl).1
            rw [e] at hb
            obtain ⟨q, hq, -⟩ := goodTy_path hb
            rw [hq]
            exact fieldTypes_safe he hns l _ _ hs' hl'
          · exact fieldTypes_safe he hns l _ _ hs' hl'

theorem fields_thread {env : ConvEnv} (he : GoodEnv env) {ns : List String} (hns : ∀ x ∈ ns, GoodName x) {fuel : Nat}
    {params : List Ident} {s s' : PassState} {l : List (Ident × Bool × Ty)}
    {out : List (Ident × Except Err (Annotated Ty))} (ht : Thread (FieldStep env fuel ns params) s l s' out)
    (hs : GoodPassState s) (hl : ∀ f ∈ l, GoodTy f.2.2) :
    GoodPassState s' ∧ ∀ id a, (id, .ok a) ∈ out → GoodTy a.ty := by
  induction ht with
  | nil => exact ⟨hs, fun id a h => by cases h⟩
  | cons h t ih =>
    have hl' := fun f hf => hl f (List.mem_cons_of_mem _ hf)
    have hg := hl _ List.mem_cons_self
    cases h with
    | failed h =>
      have hf := convert_fine he hns fuel (.withinStructField params) _ _ hs.concretes hg
      rw [h] at hf
      obtain ⟨h1, h2⟩ := ih ⟨hf.1, hs.inv, hs.extra⟩ hl'
      refine ⟨h1, fun id a hm => ?_⟩
      rcases List.mem_cons.1 hm with hm | hm
      · cases hm
      · exact h2 id a hm
    | converted h =>
      have hf := convert_fine he hns fuel (.withinStructField params) _ _ hs.concretes hg
      rw [h] at hf
      obtain ⟨h1, h2⟩ := ih (hs.ext hf.1 (hf.2.2 _ rfl)) hl'
      refine ⟨h1, fun id a hm => ?_⟩
      rcases List.mem_cons.1 hm with hm | hm
      · cases hm; exact (hf.2.2 _ rfl).1
      · exact h2 id a hm

/-- What is known about a class once its fields are converted. -/
structure GoodClass (a : PodAnalysis) : Prop where
  fields : ∀ f ∈ a.fieldInfo, GoodTy f.ty
  castable : ∀ b ∈ a.castableBases, GoodQ b ∧ ¬ IsPin b
  kind : a.kind ≠ .abstract

theorem goodTy_named {f : FieldInfo} (h : GoodTy f.ty) : ¬ NamelessField f := by
  rintro ⟨-, segs, g, e | ⟨n, e⟩, hn⟩
  · rw [e] at h
    obtain ⟨q, hq, -⟩ := goodTy_path h
    rw [hn] at hq; cases hq
  · rw [e] at h
    cases h with
    | array h =>
      obtain ⟨q, hq, -⟩ := goodTy_path h
      rw [hn] at hq; cases hq

theorem podStep_safe {env : ConvEnv} (he : GoodEnv env) {fuel : Nat} {hash : Config → Nat}
    (hallow : ∀ n, env.cfg.isOnAllowlist hash n ≠ none) {attrs : Attrs} {pod : ByValue} {a : TypedefApi}
    {apis : List NullApi} (hmem : a.shape ∈ apis)
    (ha : ∀ n d u, a = .struct n d u → GoodQ n.name ∧ (∀ f ∈ d.fields, GoodTy f.2.2) ∧
      ∀ f ∈ d.fields, ∀ q v, IsBaseField f q v → ¬ IsPin q) {s : PassState} (hs : GoodPassState s) :
    (podStep env fuel hash attrs pod s a).2 ≠ .panic ∧ ∀ s' r, podStep env fuel hash attrs pod s a = (s', .done r) →
      GoodPassState s' ∧ ∀ x ∈ apiOrError a.nameInfo r, Carried apis x.shape ∧
        (∀ n d an, x = .struct n d an → GoodClass an) ∧
        ∀ n i o an, x = .typedef n i o an → a = .typedef n i o an := by
  refine ⟨?_, fun s' r h => ?_⟩
  · cases a with
    | struct n d u =>
      obtain ⟨hq, hf, hb⟩ := ha n d u rfl
      rw [podStep, analyzeStruct]
      split
      · exact fun h => by cases h
      · split
        · exact absurd ‹_› (getBases_some hf)
        · have := fieldTypes_safe (fuel := fuel) (params := d.generics) he (goodQ_ns hq) d.fields s {} hs hf
          split
          · rename_i hc; rw [hc] at this; exact absurd rfl this
          · exact fun h => by cases h
          · split
            · exact fun h => by cases h
            · split
              · exact absurd ‹_› (castable_some hallow _)
              · exact fun h => by cases h
    | _ => exact fun h => by cases h
  · obtain ⟨b, hb, hf⟩ := podStep_fate h
    rw [hb]
    have one : ∀ {P : PodApi → Prop}, P b → ∀ x ∈ [b], P x := fun hp x hx => by rw [List.mem_singleton.1 hx]; exact hp
    have hinfo : ∀ n, a.nameInfo = n → n.cppName = none ∨ ∃ y ∈ apis, y.nameInfo = n :=
      fun n hn => .inr ⟨_, hmem, by rw [shape_nameInfo]; exact hn⟩
    cases hf with
    | other hns hne =>
      refine ⟨hs, one ⟨?_, ?_, ?_⟩⟩
      · rw [shape_map]
        exact .same hmem
      · intro n d an e
        cases a with
        | struct n d u => exact absurd rfl (hns n d u)
        | _ => cases e
      · intro n i o an e
        cases a with
        | typedef n i o u => cases e; rfl
        | _ => cases e
    | enum hd hv => exact ⟨hs, one ⟨.same hmem, fun n d an e => (by cases e), fun n i o an e => (by cases e)⟩⟩
    | unusedParam hk hd =>
      refine ⟨hs, one ⟨.ignored (hinfo _ ?_), fun n d an e => (by cases e), fun n i o an e => (by cases e)⟩⟩
      rcases hk with ⟨i, rfl⟩ | ⟨d, u, rfl⟩ <;> rfl
    | notPublic hk hd hv =>
      refine ⟨hs, one ⟨.ignored (hinfo _ ?_), fun n d an e => (by cases e), fun n i o an e => (by cases e)⟩⟩
      rcases hk with ⟨i, rfl⟩ | ⟨d, u, rfl⟩ <;> rfl
    | refused hd hv ht hw =>
      obtain ⟨hq, hf, hb⟩ := ha _ _ _ rfl
      exact ⟨(fields_thread he (goodQ_ns hq) ht hs hf).1,
        one ⟨.ignored (hinfo _ rfl), fun n d an e => (by cases e), fun n i o an e => (by cases e)⟩⟩
    | kept hd hv ht hw =>
      obtain ⟨hq, hf, hb⟩ := ha _ _ _ rfl
      obtain ⟨h1, h2⟩ := fields_thread he (goodQ_ns hq) ht hs hf
      refine ⟨h1, one ⟨.same hmem, fun n d an e => ?_, fun n i o an e => (by cases e)⟩⟩
      cases e
      refine ⟨fun f hm => ?_, fun q hm => ?_, fun e => ?_⟩
      · rw [hw.info] at hm
        obtain ⟨⟨id, o⟩, hm', e⟩ := List.mem_filterMap.1 hm
        cases o with
        | error _ => cases e
        | ok a =>
          cases e
          exact h2 id a (List.mem_of_mem_filter hm')
      · obtain ⟨⟨pre, f, post, e, hbf, -⟩, -⟩ := (hw.castable q).1 hm
        have hfm := (congrArg (f ∈ ·) e).mpr (by simp)
        refine ⟨?_, hb f hfm q _ hbf⟩
        obtain ⟨id, segs, args, rfl, -, hs⟩ := hbf
        obtain ⟨q', hq', hg, -⟩ := goodTy_path (hf _ hfm)
        rw [hs] at hq'; cases hq'; exact hg
      · have := hw.kind
        rw [e] at this
        cases this

/-- No class holds itself or derives from itself, be it through others. -/
def NoSelfHolding (apis : List PodApi) : Prop :=
  ∃ depth : QName → Nat, ∀ n d a, .struct n d a ∈ apis → ∀ q ∈ a.fieldDefinitionDeps ++ a.bases, depth q < depth n.name

/-- **C71 (POD analysis)**: the POD analysis does not panic, and what it gives does not make the later passes
panic, if no class holds itself. -/
theorem pod_pass_safe {fuel : Nat} {hash : Config → Nat} {cfg : Config} {attrs : Attrs}
    {apis : ApiVec TypedefAnalysis Unit Unit} (h : FoundItems hash cfg (apis.apis.map Api.shape)) (ht : TargetsOk apis.apis) :
    Safe (fun r => ∀ v, r = .ok v → NoSelfHolding v.apis → PodItems hash cfg v.apis)
      (analyzePodApis fuel hash cfg attrs apis) := by
  have hsh : ∀ x ∈ apis.apis, x.shape ∈ apis.apis.map Api.shape := fun x hx => List.mem_map_of_mem hx
  have hpaths : PathsOk apis.apis := by
    constructor
    · intro n i o a segs args hm e hn
      have := (ht n i o a hm).1
      rw [e] at this
      obtain ⟨q, hq, -⟩ := goodTy_path this
      rw [hn] at hq; cases hq
    · intro n d id vis segs args hm hf hn
      obtain ⟨-, -, hg, -⟩ := h.classes _ _ _ (hsh _ hm)
      obtain ⟨q, hq, -⟩ := goodTy_path (hg _ hf)
      rw [hn] at hq; cases hq
  have henv : GoodEnv (ConvEnv.ofApis (fun a : TypedefAnalysis => some a.target) cfg apis.apis).1 := by
    refine ⟨map_good fun x hx hns c hc => ?_, typedefs_good (target := fun a : TypedefAnalysis => some a.target) fun n i o a t hm e => ?_⟩
    · refine h.names _ (hsh x hx) ?_ c ?_
      · rw [shape_name]; exact hns
      · rw [shape_nameInfo]; exact hc
    · cases e; exact (ht n i o a hm).1
  have hs0 : GoodPassState { concretes := (ConvEnv.ofApis (fun a : TypedefAnalysis => some a.target) cfg apis.apis).2 } :=
    ⟨concretes_good fun n r c hm => h.concretes n r c (hsh _ hm), inv_empty, fun n r c hn => by cases hn⟩
  have key := fun pod : ByValue => runPass_safe (I := GoodPassState)
    (Q := fun x : PodApi => Carried (apis.apis.map Api.shape) x.shape ∧ (∀ n d an, x = .struct n d an → GoodClass an) ∧
      ∀ n i o an, x = .typedef n i o an → (.typedef n i o an : TypedefApi) ∈ apis.apis) apis.apis
    (fun a ha s hs => by
      obtain ⟨h1, h2⟩ := podStep_safe (fuel := fuel) (attrs := attrs) (pod := pod) henv h.allow (hsh a ha)
        (fun n d u e => by
          obtain ⟨c1, -, c2, c3⟩ := h.classes n d () (by have := hsh a ha; rw [e] at this; exact this)
          exact ⟨c1, c2, c3⟩) hs
      refine ⟨h1, fun s' r e => ?_⟩
      obtain ⟨h3, h4⟩ := h2 s' r e
      refine ⟨h3, fun x hx => ?_⟩
      obtain ⟨h5, h6, h7⟩ := h4 x hx
      exact ⟨h5, h6, fun n i o an e => h7 n i o an e ▸ ha⟩) _ hs0
  refine ⟨?_, ?_⟩
  · rw [analyzePodApis]
    split
    · exact absurd ‹_› (byValue_not_panic hpaths)
    · exact fun h => by cases h
    · exact fun h => by cases h
    · rename_i pod _
      dsimp only
      cases hr : runPass (podStep (ConvEnv.ofApis (fun a : TypedefAnalysis => some a.target) cfg apis.apis).1 fuel hash attrs pod)
          { concretes := (ConvEnv.ofApis (fun a : TypedefAnalysis => some a.target) cfg apis.apis).2 } apis.apis with
      | mk s r =>
        have h1 := (key pod).1
        rw [hr] at h1
        cases r with
        | panic => exact absurd rfl h1
        | diverges => exact fun h => by cases h
        | done out =>
          have ht := (runPass_done.1 hr).thread (R := PodFate (podEnv cfg apis) fuel hash attrs pod.isPod)
            fun s a s' r h => podStep_fate h
          have hx : ExtraOk s := ht.keeps (fun s a s' b h => podFate_extra h) ⟨ApiVec.inv_empty, by simp⟩
          simp only [PassRun.bind]
          rw [addAnalyses_ok (fun _ => {}) (fun _ => {}) id _ hx.2]
          exact fun h => by cases h
  · rintro r hr v rfl hfin
    have hv : ∃ pod s out, runPass (podStep (ConvEnv.ofApis (fun a : TypedefAnalysis => some a.target) cfg apis.apis).1 fuel
        hash attrs pod) { concretes := (ConvEnv.ofApis (fun a : TypedefAnalysis => some a.target) cfg apis.apis).2 }
          apis.apis = (s, .done out) ∧ (∀ x ∈ s.extra.apis, IsInstantiation x ∨ x.IsDup) ∧
        v = (ApiVec.fromIter out).extend (s.extra.apis.map (Api.mapAnalysis (fun _ => {}) (fun _ => {}) id)) := by
      rw [analyzePodApis] at hr
      split at hr
      · cases hr
      · cases hr
      · cases hr
      · rename_i pod _
        dsimp only at hr
        cases hrp : runPass (podStep (ConvEnv.ofApis (fun a : TypedefAnalysis => some a.target) cfg apis.apis).1 fuel hash attrs pod)
            { concretes := (ConvEnv.ofApis (fun a : TypedefAnalysis => some a.target) cfg apis.apis).2 } apis.apis with
        | mk s r =>
          rw [hrp] at hr
          cases r with
          | panic => cases hr
          | diverges => cases hr
          | done out =>
            have ht := (runPass_done.1 hrp).thread (R := PodFate (podEnv cfg apis) fuel hash attrs pod.isPod)
              fun s a s' r h => podStep_fate h
            have hx : ExtraOk s := ht.keeps (fun s a s' b h => podFate_extra h) ⟨ApiVec.inv_empty, by simp⟩
            refine ⟨pod, s, out, hrp, hx.2, ?_⟩
            simp only [PassRun.bind] at hr
            rw [addAnalyses_ok (fun _ => {}) (fun _ => {}) id _ hx.2] at hr
            cases hr
            rw [fromIter_apis]
            rw [List.map_map]
            have : (s.extra.apis.map ((·.name) ∘ Api.mapAnalysis (T' := TypedefAnalysis) (S' := PodAnalysis) (F' := Unit)
                (fun _ => {}) (fun _ => {}) id)) = s.extra.apis.map (·.name) :=
              List.map_congr_left fun x _ => Api.mapAnalysis_name _ _ _ _
            rw [this]
            exact hx.1.1
    obtain ⟨pod, s, out, hrun, hx, rfl⟩ := hv
    obtain ⟨hs, hq⟩ := (key pod).2 s out hrun
    have hc := h.carried (l := ((ApiVec.fromIter out).extend (s.extra.apis.map
        (Api.mapAnalysis (fun _ => {}) (fun _ => {}) id))).apis.map (Api.shape : PodApi → NullApi)) (fun x hx' => by
      obtain ⟨y, hy, rfl⟩ := List.mem_map.1 hx'
      exact pass_carried (fun x hx => (hq x hx).1) (extra_carried hs hx) y hy)
    generalize hV : ((ApiVec.fromIter out).extend (s.extra.apis.map
        (Api.mapAnalysis (fun _ => {}) (fun _ => {}) id) : List PodApi)).apis = V at hc hfin
    have hQ : ∀ x ∈ V, (∀ n d an, x = .struct n d an → GoodClass an) ∧
        ∀ n i o an, x = .typedef n i o an → (.typedef n i o an : TypedefApi) ∈ apis.apis := by
      intro x hm
      rw [← hV] at hm
      have dup : ∀ q, x = duplicateMarker q → (∀ n d an, x = .struct n d an → GoodClass an) ∧
          ∀ n i o an, x = .typedef n i o an → (.typedef n i o an : TypedefApi) ∈ apis.apis := by
        rintro q rfl; exact ⟨fun n d an e => (by cases e), fun n i o an e => (by cases e)⟩
      rcases extend_mem_cases _ (fromIter_inv _) hm with hm | hm | ⟨q, e⟩
      · rcases extend_mem_cases _ inv_empty hm with hm | hm | ⟨q, e⟩
        · cases hm
        · exact (hq x hm).2
        · exact dup q e
      · obtain ⟨y, hy, rfl⟩ := List.mem_map.1 hm
        rcases hx y hy with ⟨_, _, _, rfl⟩ | hd
        · exact ⟨fun n d an e => (by cases e), fun n i o an e => (by cases e)⟩
        · rw [Api.IsDup] at hd; rw [hd]
          exact ⟨fun n d an e => (by cases e), fun n i o an e => (by cases e)⟩
      · exact dup q e
    have hsv : ∀ x ∈ V, x.shape ∈ V.map Api.shape := fun x hx => List.mem_map_of_mem hx
    have hnest : ∀ q x, NestedAs V q x ↔ NestedAs (V.map Api.shape) q x := by
      intro q x
      constructor
      · rintro ⟨n, e, ⟨d, a, hm⟩ | ⟨i, hm⟩, hf⟩
        · exact ⟨n, e, .inl ⟨d, (), hsv _ hm⟩, hf⟩
        · exact ⟨n, e, .inr ⟨i, hsv _ hm⟩, hf⟩
      · rintro ⟨n, e, ⟨d, a, hm⟩ | ⟨i, hm⟩, hf⟩
        · obtain ⟨y, hy, ey⟩ := List.mem_map.1 hm
          cases y <;> cases ey
          exact ⟨n, e, .inl ⟨d, _, hy⟩, hf⟩
        · obtain ⟨y, hy, ey⟩ := List.mem_map.1 hm
          cases y <;> cases ey
          exact ⟨n, e, .inr ⟨i, hy⟩, hf⟩
    refine ⟨h.allow, ?_, ?_, ?_, ?_, fun q x hx => hc.nested q x ((hnest q x).1 hx), ?_, ?_, ?_, ?_, hfin⟩
    · intro x hx hns c hcc
      refine hc.names _ (hsv x hx) ?_ c ?_
      · rw [shape_name]; exact hns
      · rw [shape_nameInfo]; exact hcc
    · intro x hx hf t hs
      refine hc.emits _ (hsv x hx) ?_ t ?_
      · cases x <;> first | rfl | cases hf
      · cases x <;> exact hs
    · intro n i o a hx
      exact ht _ _ _ _ ((hQ _ hx).2 _ _ _ _ rfl)
    · intro n r c hx; exact hc.concretes n r c (hsv _ hx)
    · intro n sup hx; exact hc.subs n sup (hsv _ hx)
    · intro x hx
      have := hc.nosub _ (hsv x hx)
      cases x <;> first | trivial | exact this
    · intro n f u hx nested hn
      exact hc.fns n f () (hsv _ hx) nested fun q x hq => (hnest q x).1 (hn q x hq)
    · intro n d a hx
      obtain ⟨c1, c2, -⟩ := hc.classes n d () (hsv _ hx)
      have := (hQ _ hx).1 n d a rfl
      exact ⟨c1, c2, fun f hf => goodTy_named (this.fields f hf), this.castable, this.kind⟩

/-! ### The whole conversion -/

/-- **C71 (all passes)**: once the items are parsed and well-named, and no class holds itself, no pass up to the
garbage collector panics. -/
theorem convert_safe {fuel : Nat} {hash : Config → Nat} {sigOf : RustSig → RustFnSig} {policy : UnsafePolicy}
    {cfg : Config} {force : Bool} {cb : Callbacks} {items : List BindgenItem}
    (hparse : parseBindgenItems hash sigOf cfg cb items ≠ none)
    (hfound : ∀ apis, parseBindgenItems hash sigOf cfg cb items = some (.ok apis) → FoundItems hash cfg apis.apis)
    (hself : ∀ apis tds v, parseBindgenItems hash sigOf cfg cb items = some (.ok apis) →
      convertTypedefTargets fuel cfg cb.attrs apis = .done tds →
      analyzePodApis fuel hash cfg cb.attrs tds = .done (.ok v) → NoSelfHolding v.apis) :
    convertApisFrom fuel hash sigOf policy cfg force cb (some items) ≠ .panic := by
  rw [convertApisFrom]
  cases hp : parseBindgenItems hash sigOf cfg cb items with
  | none => exact absurd hp hparse
  | some r =>
    cases r with
    | error e => exact fun h => by cases h
    | ok apis =>
      have h1 := typedef_pass_safe (fuel := fuel) (attrs := cb.attrs) (hfound apis hp)
      simp only [PassRun.ofOption, PassRun.andThen, PassRun.bind]
      cases ht : convertTypedefTargets fuel cfg cb.attrs apis with
      | panic => exact absurd ht h1.1
      | diverges => exact fun h => by cases h
      | done tds =>
        obtain ⟨h2, h3⟩ := h1.2 tds ht
        have h4 := pod_pass_safe (fuel := fuel) (attrs := cb.attrs) h2 h3
        dsimp only
        cases hpod : analyzePodApis fuel hash cfg cb.attrs tds with
        | panic => exact absurd hpod h4.1
        | diverges => exact fun h => by cases h
        | done r =>
          cases r with
          | error m => exact fun h => by cases h
          | ok v =>
            have h5 := analysis_safe (fuel := fuel) (policy := policy) (force := force)
              (h4.2 _ hpod v rfl (hself apis tds v hp ht hpod))
            dsimp only
            cases ha : analysisPasses fuel hash policy cfg force v with
            | panic => exact absurd ha h5.1
            | diverges => exact fun h => by cases h
            | done out =>
              have h6 := h5.2 out ha
              dsimp only
              cases hg : gc hash cfg out with
              | none => exact absurd hg h6
              | some o => exact fun h => by cases h

end Verif
