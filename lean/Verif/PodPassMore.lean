import Verif.PodPassProps
import Verif.TypeConvMore
import Verif.ByValueMore
import Verif.DecideKnown

/-!
# The POD pass as a whole
-/

set_option autoImplicit false

namespace Verif

theorem PodFate.name {env : ConvEnv} {fuel : Nat} {hash : Config → Nat} {attrs : Attrs} {pod : QName → Bool}
    {s s' : PassState} {a : TypedefApi} {b : PodApi} (h : PodFate env fuel hash attrs pod s a s' b) :
    b.name = a.name := by
  cases h with
  | other => exact Api.mapAnalysis_name _ _ _ _
  | unusedParam h => rcases h with ⟨i, rfl⟩ | ⟨d, u, rfl⟩ <;> rfl
  | notPublic h => rcases h with ⟨i, rfl⟩ | ⟨d, u, rfl⟩ <;> rfl
  | _ => rfl

theorem fieldStep_extra {env : ConvEnv} {fuel : Nat} {ns : List String} {params : List Ident} {s s' : PassState}
    {f : Ident × Bool × Ty} {o : Ident × Except Err (Annotated Ty)} (h : FieldStep env fuel ns params s f s' o)
    (hs : ExtraOk s) : ExtraOk s' := by
  cases h with
  | failed => exact hs
  | converted h =>
    exact extend_extraOk hs.1 hs.2 _ fun x hx => (convert_extra_inst _ _ _ _ _ _ _ _ h x hx).1

theorem fieldStep_grows {env : ConvEnv} {fuel : Nat} {ns : List String} {params : List Ident} {s s' : PassState}
    {f : Ident × Bool × Ty} {o : Ident × Except Err (Annotated Ty)} (h : FieldStep env fuel ns params s f s' o) :
    Grows s.concretes s'.concretes := by
  cases h with
  | failed h =>
    rename_i ty st e
    have := convertType_grows env ns fuel (.withinStructField params) s.concretes ty
    rwa [h] at this
  | converted h =>
    rename_i ty st e
    have := convertType_grows env ns fuel (.withinStructField params) s.concretes ty
    rwa [h] at this

theorem podFate_extra {env : ConvEnv} {fuel : Nat} {hash : Config → Nat} {attrs : Attrs} {pod : QName → Bool}
    {s s' : PassState} {a : TypedefApi} {b : PodApi} (h : PodFate env fuel hash attrs pod s a s' b)
    (hs : ExtraOk s) : ExtraOk s' := by
  cases h with
  | refused _ _ ht _ => exact ht.keeps (fun _ _ _ _ => fieldStep_extra) hs
  | kept _ _ ht _ => exact ht.keeps (fun _ _ _ _ => fieldStep_extra) hs
  | _ => exact hs

theorem podFate_grows {env : ConvEnv} {fuel : Nat} {hash : Config → Nat} {attrs : Attrs} {pod : QName → Bool}
    {s s' : PassState} {a : TypedefApi} {b : PodApi} (h : PodFate env fuel hash attrs pod s a s' b) :
    Grows s.concretes s'.concretes := by
  cases h with
  | refused _ _ ht _ =>
    exact ht.monotone (Q := fun s s' => Grows s.concretes s'.concretes) (fun _ => .refl)
      (fun _ _ _ => Grows.trans) (fun _ _ _ _ => fieldStep_grows)
  | kept _ _ ht _ =>
    exact ht.monotone (Q := fun s s' => Grows s.concretes s'.concretes) (fun _ => .refl)
      (fun _ _ _ => Grows.trans) (fun _ _ _ _ => fieldStep_grows)
  | _ => exact .refl

/-- What the converter knows in the POD pass. -/
def podEnv (cfg : Config) (apis : ApiVec TypedefAnalysis Unit Unit) : ConvEnv :=
  (ConvEnv.ofApis (fun a : TypedefAnalysis => some a.target) cfg apis.apis).1

/-- **C61**: the POD pass settles which types are passed by value, gives every item its fate, one after the
other, and adds the template instantiations which it came across. -/
theorem pod_pass (fuel : Nat) (hash : Config → Nat) (cfg : Config) (attrs : Attrs)
    (apis : ApiVec TypedefAnalysis Unit Unit) (v : ApiVec TypedefAnalysis PodAnalysis Unit)
    (h : analyzePodApis fuel hash cfg attrs apis = .done (.ok v)) :
    ∃ pod s out, byValueFromApis apis.apis cfg = .ok pod ∧
      Thread (PodFate (podEnv cfg apis) fuel hash attrs pod.isPod) { concretes := findConcretes apis.apis } apis.apis s out ∧
      (∀ x ∈ s.extra.apis, IsInstantiation x ∨ x.IsDup) ∧
      v = (ApiVec.fromIter out).extend (s.extra.apis.map (Api.mapAnalysis (fun _ => {}) (fun _ => {}) id)) := by
  unfold analyzePodApis at h
  cases hp : byValueFromApis apis.apis cfg with
  | panic => rw [hp] at h; cases h
  | loops => rw [hp] at h; cases h
  | err m => rw [hp] at h; cases h
  | ok pod =>
    rw [hp] at h
    dsimp only at h
    cases hr : runPass (podStep (ConvEnv.ofApis (fun a : TypedefAnalysis => some a.target) cfg apis.apis).1 fuel hash attrs pod)
        { concretes := (ConvEnv.ofApis (fun a : TypedefAnalysis => some a.target) cfg apis.apis).2 } apis.apis with
    | mk s r =>
      rw [hr] at h
      cases r with
      | panic => cases h
      | diverges => cases h
      | done out =>
        have ht := (runPass_done.1 hr).thread (R := PodFate (podEnv cfg apis) fuel hash attrs pod.isPod)
          fun s a s' r h => podStep_fate h
        have hx : ExtraOk s := ht.keeps (fun s a s' b h => podFate_extra h) ⟨ApiVec.inv_empty, by simp⟩
        refine ⟨pod, s, out, rfl, ht, hx.2, ?_⟩
        simp only [PassRun.bind] at h
        rw [addAnalyses_ok (fun _ => {}) (fun _ => {}) id _ hx.2] at h
        cases h
        rw [fromIter_apis]
        rw [List.map_map]
        have : (s.extra.apis.map ((·.name) ∘ Api.mapAnalysis (T' := TypedefAnalysis) (S' := PodAnalysis) (F' := Unit)
            (fun _ => {}) (fun _ => {}) id)) = s.extra.apis.map (·.name) :=
          List.map_congr_left fun x _ => Api.mapAnalysis_name _ _ _ _
        rw [this]
        exact hx.1.1

/-- **C61**: the POD pass fails as a whole exactly if settling the requests for types passed by value does. -/
theorem pod_pass_fails (fuel : Nat) (hash : Config → Nat) (cfg : Config) (attrs : Attrs)
    (apis : ApiVec TypedefAnalysis Unit Unit) (m : String) :
    analyzePodApis fuel hash cfg attrs apis = .done (.error m) ↔ byValueFromApis apis.apis cfg = .err m := by
  unfold analyzePodApis
  cases hp : byValueFromApis apis.apis cfg with
  | panic => simp
  | loops => simp
  | err m => simp
  | ok pod =>
    dsimp only
    constructor
    · intro h
      cases hr : runPass (podStep (ConvEnv.ofApis (fun a : TypedefAnalysis => some a.target) cfg apis.apis).1 fuel hash attrs pod)
          { concretes := (ConvEnv.ofApis (fun a : TypedefAnalysis => some a.target) cfg apis.apis).2 } apis.apis with
      | mk s r =>
        rw [hr] at h
        cases r with
        | panic => cases h
        | diverges => cases h
        | done out =>
          simp only [PassRun.bind, addAnalyses] at h
          cases hm : s.extra.apis.mapM (addAnalysis (T := TypedefAnalysis) (S := PodAnalysis) (F := Unit)) with
          | none => rw [hm] at h; cases h
          | some x => rw [hm] at h; cases h
    · intro h; cases h

/-- **C61**: every item is still there after the POD pass, as `PodFate` says, unless an instantiation was given
its name. -/
theorem pod_pass_item (fuel : Nat) (hash : Config → Nat) (cfg : Config) (attrs : Attrs)
    (apis : ApiVec TypedefAnalysis Unit Unit) (hi : apis.Inv) (v : ApiVec TypedefAnalysis PodAnalysis Unit)
    (h : analyzePodApis fuel hash cfg attrs apis = .done (.ok v)) (a : TypedefApi) (ha : a ∈ apis.apis) :
    ∃ pod s s' b, byValueFromApis apis.apis cfg = .ok pod ∧
      PodFate (podEnv cfg apis) fuel hash attrs pod.isPod s a s' b ∧
      (v.get? a.name = some b ∨ ∃ x, v.get? a.name = some x ∧ x.IsDup ∧ a.name.ns = []) := by
  obtain ⟨pod, s, out, hp, ht, hx, rfl⟩ := pod_pass fuel hash cfg attrs apis v h
  have hnames : apis.apis.map (·.name) = out.map (·.name) :=
    ht.all2.map_eq fun a b ⟨_, _, h⟩ => h.name.symm
  have hnd : (out.map (·.name)).Nodup := hnames ▸ hi.1
  obtain ⟨b, hb, s1, s2, hf⟩ := ht.all2.left ha
  refine ⟨pod, s1, s2, b, hp, hf, ?_⟩
  have hget : (ApiVec.fromIter out).get? a.name = some b := by
    rw [ApiVec.get?_some_iff (fromIter_inv _), fromIter_apis _ hnd]
    exact ⟨hb, hf.name⟩
  rw [apivec_extend_spec _ (fromIter_inv _), hget]
  rcases foldl_specMerge_outcome ((s.extra.apis.map (Api.mapAnalysis (T' := TypedefAnalysis) (S' := PodAnalysis)
      (F' := Unit) (fun _ => {}) (fun _ => {}) id)).filter
      fun x => x.name = a.name) b with he | ⟨x, y, he, hxi, hy, hyi⟩
  · exact .inl he
  · refine .inr ⟨x, he, hxi, ?_⟩
    rw [List.mem_filter, List.mem_map] at hy
    obtain ⟨⟨z, hz, rfl⟩, hn⟩ := hy
    have hn' : z.name = a.name := by
      rw [Api.mapAnalysis_name] at hn; simpa using hn
    rcases hx z hz with ⟨id, rs, cpp, rfl⟩ | hzi
    · rw [← hn']; rfl
    · exact absurd hyi (by cases z <;> first | (intro e; cases e; done) | cases hzi)

/-- The structs which survive the pass. -/
theorem pod_pass_kept (fuel : Nat) (hash : Config → Nat) (cfg : Config) (attrs : Attrs)
    (apis : ApiVec TypedefAnalysis Unit Unit) (v : ApiVec TypedefAnalysis PodAnalysis Unit)
    (h : analyzePodApis fuel hash cfg attrs apis = .done (.ok v)) (n : ApiName) (d : StructDetails) (an : PodAnalysis)
    (hm : .struct n d an ∈ v.apis) :
    Api.struct n d () ∈ apis.apis ∧ attrs.discardsTemplateParam n.name = false ∧ attrs.cppVisibility n.name = .pub ∧
    ∃ pod s s' out, byValueFromApis apis.apis cfg = .ok pod ∧
      Thread (FieldStep (podEnv cfg apis) fuel n.name.ns d.generics) s d.fields s' out ∧
      Grows (findConcretes apis.apis) s.concretes ∧ StructKept hash cfg pod.isPod n.name d out an := by
  obtain ⟨pod, s, out, hp, ht, hx, rfl⟩ := pod_pass fuel hash cfg attrs apis v h
  rcases mem_extend _ _ hm with hm | hm | hm
  · rcases mem_extend _ _ hm with hm | hm | hm
    · cases hm
    · obtain ⟨a, ha, s1, s2, hf, hg, -⟩ := (ht.between (Q := fun s s' => Grows s.concretes s'.concretes)
        (fun _ => .refl) (fun _ _ _ => Grows.trans) (fun s a s' b h => podFate_grows h)).right hm
      generalize hb : Api.struct n d an = b at hf
      cases hf with
      | other hne =>
        cases a with
        | struct => exact absurd rfl (hne _ _ _)
        | _ => cases hb
      | kept hd hv ht hk => cases hb; exact ⟨ha, hd, hv, pod, s1, s2, _, hp, ht, hg, hk⟩
      | _ => cases hb
    · cases hm
  · rw [List.mem_map] at hm
    obtain ⟨z, hz, e⟩ := hm
    rcases hx z hz with ⟨id, rs, cpp, rfl⟩ | hzi
    · cases e
    · exact absurd e (by cases z <;> first | (intro e; cases e; done) | cases hzi)
  · cases hm

/-- **C61**: a struct is passed by value only if that was settled for it, it was public, it has no rvalue
reference fields and no data of which nothing is known, and all its fields and bases could be converted. -/
theorem pod_struct_by_value (fuel : Nat) (hash : Config → Nat) (cfg : Config) (attrs : Attrs)
    (apis : ApiVec TypedefAnalysis Unit Unit) (v : ApiVec TypedefAnalysis PodAnalysis Unit)
    (h : analyzePodApis fuel hash cfg attrs apis = .done (.ok v)) (n : ApiName) (d : StructDetails) (an : PodAnalysis)
    (hm : .struct n d an ∈ v.apis) (hk : an.kind = .pod) :
    (∃ pod, byValueFromApis apis.apis cfg = .ok pod ∧ pod.isPod n.name = true) ∧
    attrs.cppVisibility n.name = .pub ∧ d.hasRvalueReferenceFields = false ∧
    (∀ vis ty, ("_bindgen_opaque_blob", vis, ty) ∉ d.fields) ∧
    ∀ f ∈ d.fields, ∃ st st' a, Grows (findConcretes apis.apis) st ∧
      convertType (podEnv cfg apis) n.name.ns fuel (.withinStructField d.generics) st f.2.2 = (st', .ok a) := by
  obtain ⟨-, -, hv, pod, s, s', out, hp, ht, hg, hs⟩ := pod_pass_kept fuel hash cfg attrs apis v h n d an hm
  have hkind := hs.kind
  rw [hk] at hkind
  cases hkind with
  | pod hb hpod hr hf =>
    have hc : ∀ f ∈ d.fields, ∃ st st' a, Grows (findConcretes apis.apis) st ∧ (f.1, .ok a) ∈ out ∧
      convertType (podEnv cfg apis) n.name.ns fuel (.withinStructField d.generics) st f.2.2 = (st', .ok a) := by
      intro f hfm
      obtain ⟨o, ho, s1, s2, hst, hg1, -⟩ := (ht.between (Q := fun s s' => Grows s.concretes s'.concretes)
        (fun _ => .refl) (fun _ _ _ => Grows.trans) (fun _ _ _ _ => fieldStep_grows)).left hfm
      obtain ⟨a, ha⟩ := hf o ho
      cases hst with
      | failed => cases ha
      | converted hc => cases ha; exact ⟨_, _, _, hg.trans hg1, ho, hc⟩
    refine ⟨⟨pod, hp, hpod⟩, hv, hr, ?_, ?_⟩
    · intro vis ty hm
      obtain ⟨-, -, a, -, ho, -⟩ := hc _ hm
      exact hb ⟨a, ho⟩
    · intro f hfm
      obtain ⟨st, st', a, h1, -, h2⟩ := hc f hfm
      exact ⟨st, st', a, h1, h2⟩

/-- **C61**: a struct which is settled to be passed by value, and comes through the pass, is passed by value,
unless it holds data of which nothing is known. -/
theorem pod_struct_honoured (fuel : Nat) (hash : Config → Nat) (cfg : Config) (attrs : Attrs)
    (apis : ApiVec TypedefAnalysis Unit Unit) (v : ApiVec TypedefAnalysis PodAnalysis Unit)
    (h : analyzePodApis fuel hash cfg attrs apis = .done (.ok v)) (n : ApiName) (d : StructDetails) (an : PodAnalysis)
    (hm : .struct n d an ∈ v.apis) (pod : ByValue) (hp : byValueFromApis apis.apis cfg = .ok pod)
    (hq : pod.isPod n.name = true) :
    an.kind = .pod ∨ an.kind = .opaque ∧ ∃ vis ty, ("_bindgen_opaque_blob", vis, ty) ∈ d.fields := by
  obtain ⟨-, -, hv, pod', s, s', out, hp', ht, hg, hs⟩ := pod_pass_kept fuel hash cfg attrs apis v h n d an hm
  rw [hp] at hp'
  cases hp'
  have hkind := hs.kind
  generalize hke : an.kind = k at hkind
  cases hkind with
  | blob hb =>
    obtain ⟨a, ha⟩ := hb
    obtain ⟨⟨id, vis, ty⟩, hf, s1, s2, hst⟩ := ht.all2.right ha
    cases hst
    exact .inr ⟨rfl, _, _, hf⟩
  | pod => exact .inl rfl
  | nonPod _ hn => rw [hq] at hn; cases hn

/-- A field's type after conversion, for a struct which came through the pass: those recorded. -/
theorem pod_field_origin (fuel : Nat) (hash : Config → Nat) (cfg : Config) (attrs : Attrs)
    (apis : ApiVec TypedefAnalysis Unit Unit) (v : ApiVec TypedefAnalysis PodAnalysis Unit)
    (h : analyzePodApis fuel hash cfg attrs apis = .done (.ok v)) (n : ApiName) (d : StructDetails) (an : PodAnalysis)
    (hm : .struct n d an ∈ v.apis) (f : FieldInfo) (hf : f ∈ an.fieldInfo) :
    ∃ id vis ty st st' a, (id, vis, ty) ∈ d.fields ∧ ¬ BaseOrPadding id ∧ Grows (findConcretes apis.apis) st ∧
      convertType (podEnv cfg apis) n.name.ns fuel (.withinStructField d.generics) st ty = (st', .ok a) ∧
      f = ⟨a.ty, a.kind, id = "_bindgen_opaque_blob"⟩ ∧ ∀ q ∈ a.deps, q ∈ an.fieldDeps := by
  obtain ⟨-, -, -, pod, s, s', out, -, ht, hg, hs⟩ := pod_pass_kept fuel hash cfg attrs apis v h n d an hm
  rw [hs.info, List.mem_filterMap] at hf
  obtain ⟨⟨id, r⟩, ho, he⟩ := hf
  rw [List.mem_filter] at ho
  obtain ⟨ho, hnb⟩ := ho
  cases r with
  | error => cases he
  | ok a =>
    cases he
    obtain ⟨⟨id', vis, ty⟩, hfm, s1, s2, hst, hg1, -⟩ := (ht.between (Q := fun s s' => Grows s.concretes s'.concretes)
      (fun _ => .refl) (fun _ _ _ => Grows.trans) (fun _ _ _ _ => fieldStep_grows)).right ho
    have hnb' : ¬ BaseOrPadding id := fun hb => by
      rw [← isBaseOrPadding_iff] at hb
      simp [hb] at hnb
    cases hst with
    | converted hc =>
      refine ⟨id, vis, ty, _, _, a, hfm, hnb', hg.trans hg1, hc, rfl, fun q hq => ?_⟩
      exact (hs.deps q).2 ⟨id, a, ho, hnb', hq⟩

/-- **C56, C61**: every type used by a recorded field of a struct is built in, or among its field
dependencies, or part of the target of a typedef to which those lead; and every base is listed. -/
theorem pod_field_deps (fuel : Nat) (hash : Config → Nat) (cfg : Config) (attrs : Attrs)
    (apis : ApiVec TypedefAnalysis Unit Unit) (v : ApiVec TypedefAnalysis PodAnalysis Unit)
    (h : analyzePodApis fuel hash cfg attrs apis = .done (.ok v)) (n : ApiName) (d : StructDetails) (an : PodAnalysis)
    (hm : .struct n d an ∈ v.apis) :
    (∀ f ∈ an.fieldInfo, ∀ q, UsesName f.ty q → AccountedFor (podEnv cfg apis).typedefs an.fieldDeps q) ∧
    ∀ q, q ∈ an.bases ↔ ∃ f ∈ d.fields, ∃ v, IsBaseField f q v := by
  constructor
  · intro f hf q hq
    obtain ⟨id, vis, ty, st, st', a, -, -, -, hc, rfl, hd⟩ :=
      pod_field_origin fuel hash cfg attrs apis v h n d an hm f hf
    exact (convert_deps_complete _ _ _ _ _ _ _ _ hc q hq).mono hd
  · obtain ⟨-, -, -, pod, s, s', out, -, ht, hg, hs⟩ := pod_pass_kept fuel hash cfg attrs apis v h n d an hm
    exact hs.bases

/-- **C55 (partial)**: no recorded field of a struct, other than an array, has a type whose definition would
have to be known but which is only declared. -/
theorem pod_field_complete_partial (fuel : Nat) (hash : Config → Nat) (cfg : Config) (attrs : Attrs)
    (apis : ApiVec TypedefAnalysis Unit Unit) (v : ApiVec TypedefAnalysis PodAnalysis Unit)
    (hfwd : ∀ q ∈ (podEnv cfg apis).forward, knownGet q = none)
    (h : analyzePodApis fuel hash cfg attrs apis = .done (.ok v)) (n : ApiName) (d : StructDetails) (an : PodAnalysis)
    (hm : .struct n d an ∈ v.apis) (f : FieldInfo) (hf : f ∈ an.fieldInfo) (hna : ∀ e len, f.ty ≠ .array e len)
    (q : QName) (hq : NeedsComplete f.ty q) : q ∉ (podEnv cfg apis).forward := by
  obtain ⟨id, vis, ty, st, st', a, -, -, -, hc, rfl, hd⟩ :=
    pod_field_origin fuel hash cfg attrs apis v h n d an hm f hf
  exact forward_partial _ _ _ _ _ _ _ _ (by intro e; cases e) hfwd hc hna q hq

/-- **C59 (partial)**: no recorded field of a struct uses a blocked type, other than under a name registered
for a template instantiation, provided the targets of typedefs do not. -/
theorem pod_field_not_blocked_partial (fuel : Nat) (hash : Config → Nat) (cfg : Config) (attrs : Attrs)
    (apis : ApiVec TypedefAnalysis Unit Unit) (v : ApiVec TypedefAnalysis PodAnalysis Unit)
    (htd : ∀ x t, AMap.get? (podEnv cfg apis).typedefs x = some t → ∀ q, UsesName t q → q.toCppName ∉ cfg.blocklist)
    (hpin : QName.toCppName ⟨["core", "pin"], "Pin"⟩ ∉ cfg.blocklist)
    (h : analyzePodApis fuel hash cfg attrs apis = .done (.ok v)) (n : ApiName) (d : StructDetails) (an : PodAnalysis)
    (hm : .struct n d an ∈ v.apis) (f : FieldInfo) (hf : f ∈ an.fieldInfo) (q : QName) (hq : UsesName f.ty q)
    (hb : q.toCppName ∈ cfg.blocklist) :
    ∃ st cpp r, Grows (findConcretes apis.apis) st ∧ AMap.get? st cpp = some r ∧ r.toCppName = q.toCppName := by
  obtain ⟨id, vis, ty, st, st', a, -, -, hg, hc, rfl, hd⟩ :=
    pod_field_origin fuel hash cfg attrs apis v h n d an hm f hf
  obtain ⟨cpp, r, h1, h2⟩ := blocklist_partial (podEnv cfg apis) _ _ _ _ _ _ _ htd hpin hc q hq hb
  exact ⟨st', cpp, r, hg.trans (convert_ok_grows hc), h1, h2⟩

/-! ### The pass ends -/

theorem fieldTypes_converges (env : ConvEnv) (ns : List String) (params : List Ident) (ho : DeclaredInOrder env ns)
    (l : List (Ident × Bool × Ty)) :
    ∃ n, ∀ k s acc, (fieldTypes env (n + k) ns params s acc l).2 ≠ .diverges := by
  induction l with
  | nil => exact ⟨0, fun k s acc h => by cases h⟩
  | cons f l ih =>
    obtain ⟨id, vis, ty⟩ := f
    obtain ⟨n, hn⟩ := ih
    obtain ⟨m, hm⟩ := convert_terminates_partial env ns ho ty
    refine ⟨m + n, fun k s acc => ?_⟩
    have hc : (convertType env ns (m + n + k) (.withinStructField params) s.concretes ty).2 ≠ .outOfFuel := by
      rw [Nat.add_assoc, convert_fuel_mono _ _ _ _ _ _ _ (hm _ _)]; exact hm _ _
    have hr : ∀ s acc, (fieldTypes env (m + n + k) ns params s acc l).2 ≠ .diverges := by
      intro s acc
      rw [Nat.add_comm m n, Nat.add_assoc]; exact hn _ _ _
    rw [fieldTypes]
    cases hcv : convertType env ns (m + n + k) (.withinStructField params) s.concretes ty with
    | mk st r =>
      rw [hcv] at hc
      cases r with
      | outOfFuel => exact absurd rfl hc
      | panic => intro h; cases h
      | err e => exact hr _ _
      | ok a =>
        dsimp only [CRes.toRun]
        repeat' split
        all_goals first | exact hr _ _ | (intro h; cases h)

theorem podStep_converges (env : ConvEnv) (hash : Config → Nat) (ho : ∀ ns, DeclaredInOrder env ns) (attrs : Attrs)
    (pod : ByValue) (a : TypedefApi) : ∃ n, ∀ k s, (podStep env (n + k) hash attrs pod s a).2 ≠ .diverges := by
  cases a with
  | struct nm d u =>
    obtain ⟨n, hn⟩ := fieldTypes_converges env nm.name.ns d.generics (ho _) d.fields
    refine ⟨n, fun k s => ?_⟩
    have := hn k s {}
    rw [podStep, analyzeStruct]
    cases hf : fieldTypes env (n + k) nm.name.ns d.generics s {} d.fields with
    | mk s1 r =>
      rw [hf] at this
      cases checkForFatalAttrs attrs nm.name with
      | error e => intro h; cases h
      | ok _ =>
        dsimp only
        cases getBases d.fields with
        | none => intro h; cases h
        | some b =>
          cases r with
          | diverges => exact absurd rfl this
          | panic => intro h; cases h
          | done fs =>
            dsimp only
            cases structKind pod nm d fs with
            | error e => intro h; cases h
            | ok kd =>
              dsimp only
              cases castableBases hash env.cfg b <;> (intro h; cases h)
  | _ => exact ⟨0, fun k s h => by cases h⟩

/-- **C57 (partial)**: the POD pass ends, provided typedefs are declared in order. -/
theorem pod_pass_ends_partial (hash : Config → Nat) (cfg : Config) (attrs : Attrs)
    (apis : ApiVec TypedefAnalysis Unit Unit) (ho : ∀ ns, DeclaredInOrder (podEnv cfg apis) ns)
    (hi : apis.Inv) (hb : NoBuiltinNames apis.apis) :
    ∃ n, ∀ k, analyzePodApis (n + k) hash cfg attrs apis ≠ .diverges := by
  cases hp : byValueFromApis apis.apis cfg with
  | panic => exact ⟨0, fun k h => by unfold analyzePodApis at h; rw [hp] at h; cases h⟩
  | loops => exact absurd hp (pod_terminates apis.apis cfg hi.1 hb)
  | err m => exact ⟨0, fun k h => by unfold analyzePodApis at h; rw [hp] at h; cases h⟩
  | ok pod =>
    obtain ⟨n, hn⟩ : ∃ n, ∀ k, ∀ a ∈ apis.apis, ∀ s,
        (podStep (podEnv cfg apis) (n + k) hash attrs pod s a).2 ≠ .diverges := by
      generalize apis.apis = l
      induction l with
      | nil => exact ⟨0, by simp⟩
      | cons a l ih =>
        obtain ⟨n, hn⟩ := ih
        obtain ⟨m, hm⟩ := podStep_converges (podEnv cfg apis) hash ho attrs pod a
        refine ⟨m + n, fun k b hb s => ?_⟩
        rcases List.mem_cons.1 hb with rfl | hb
        · rw [Nat.add_assoc]; exact hm _ _
        · rw [Nat.add_comm m n, Nat.add_assoc]; exact hn _ b hb s
    refine ⟨n, fun k h => ?_⟩
    unfold analyzePodApis at h
    rw [hp] at h
    dsimp only at h
    have hc := runPass_converges apis.apis (fun a ha s => hn k a ha s) { concretes := findConcretes apis.apis }
    cases hr : runPass (podStep (ConvEnv.ofApis (fun a : TypedefAnalysis => some a.target) cfg apis.apis).1 (n + k) hash attrs pod)
        { concretes := (ConvEnv.ofApis (fun a : TypedefAnalysis => some a.target) cfg apis.apis).2 } apis.apis with
    | mk s r =>
      have hc' : r ≠ .diverges := by
        have e : (runPass (podStep (podEnv cfg apis) (n + k) hash attrs pod) { concretes := findConcretes apis.apis } apis.apis).2 = r :=
          congrArg Prod.snd hr
        rwa [e] at hc
      rw [hr] at h
      cases r with
      | panic => cases h
      | diverges => exact hc' rfl
      | done l =>
        simp only [PassRun.bind, addAnalyses] at h
        cases hm : s.extra.apis.mapM (addAnalysis (T := TypedefAnalysis) (S := PodAnalysis) (F := Unit)) with
        | none => rw [hm] at h; cases h
        | some x => rw [hm] at h; cases h

/-! ### An example -/

theorem podStep_congr {env : ConvEnv} {fuel : Nat} {hash : Config → Nat} {attrs : Attrs} {pod pod' : ByValue}
    {a : TypedefApi}
    (h : ∀ n d u, a = .struct n d u → pod.isPod n.name = pod'.isPod n.name) (s : PassState) :
    podStep env fuel hash attrs pod s a = podStep env fuel hash attrs pod' s a := by
  cases a with
  | struct n d u =>
    have : structKind pod n d = structKind pod' n d := by
      funext fs
      unfold structKind
      rw [h n d u rfl]
    rw [podStep, podStep, analyzeStruct, analyzeStruct, this]
  | _ => rfl

theorem runPass_congr {σ T S F T' S' F' : Type}
    {f g : σ → Api T S F → σ × PassRun (Except ErrWithCtx (List (Api T' S' F')))} {l : List (Api T S F)}
    (h : ∀ a ∈ l, ∀ s, f s a = g s a) (s : σ) : runPass f s l = runPass g s l := by
  induction l generalizing s with
  | nil => rfl
  | cons a l ih =>
    have : runPass f = fun s l => runPass f s l := rfl
    rw [runPass, runPass, h a (by simp) s]
    cases g s a with
    | mk s1 r =>
      cases r with
      | done r =>
        dsimp only
        rw [ih fun b hb => h b (by simp [hb])]
      | _ => rfl

/-- Two structs which are requested by value, a class with a base which is public and one which is not, one with a
field which cannot be converted, one with a blob, a private one, and an enum. -/
def exPodApis : ApiVec TypedefAnalysis Unit Unit := ApiVec.fromIter
  [point, line,
   .struct ⟨⟨["a"], "D"⟩, none⟩ { fields :=
     [("_base", true, .path ["root", "Point"] []), ("_base_1", false, .path ["root", "Line"] []),
      ("v", true, .path ["root", "Foo"] [.path ["root", "Point"] []]), ("w", true, .path ["root", "Secret"] [])] } (),
   .struct ⟨⟨[], "Blob"⟩, none⟩ { fields := [("_bindgen_opaque_blob", true, .array (.path ["u8"] []) "8usize")] } (),
   .struct ⟨⟨[], "Private"⟩, none⟩ {} (),
   .enum ⟨⟨[], "E"⟩, none⟩ "enum E {}"]

def exPodCfg : Config := { podRequests := ["Line"], blocklist := ["Secret"], allowlist := .all }

def exPodAttrs : Attrs :=
  { discardsTemplateParam := fun _ => false
    cppVisibility := fun q => if q = ⟨[], "Private"⟩ then .priv else .pub }

theorem exPod_settled : ∃ r, byValueFromApis exPodApis.apis exPodCfg = .ok r ∧
    r.isPod ⟨[], "Point"⟩ = true ∧ r.isPod ⟨[], "Line"⟩ = true ∧
    r.isPod ⟨["a"], "D"⟩ = false ∧ r.isPod ⟨[], "Blob"⟩ = false ∧ r.isPod ⟨[], "Private"⟩ = false ∧
    r.isPod ⟨[], "E"⟩ = true := by
  have h : OptAll (fun r => AMap.get? r ⟨[], "Line"⟩ = some ⟨.safe, [⟨[], "Point"⟩]⟩ ∧
      AMap.get? r ⟨[], "Point"⟩ = some ⟨.safe, [⟨["std", "os", "raw"], "c_int"⟩]⟩ ∧
      AMap.get? r ⟨["std", "os", "raw"], "c_int"⟩ = some ⟨.isPod, []⟩ ∧
      ByValue.isPod r ⟨["a"], "D"⟩ = false ∧ ByValue.isPod r ⟨[], "Blob"⟩ = false ∧
      ByValue.isPod r ⟨[], "Private"⟩ = false ∧ ByValue.isPod r ⟨[], "E"⟩ = true)
      (byValueIngest exPodApis.apis exPodCfg) := by decide_known
  rw [byValueFromApis]
  revert h
  cases byValueIngest exPodApis.apis exPodCfg with
  | none => exact False.elim
  | some r =>
    rintro ⟨h1, h2, h3, h4, h5, h6, h7⟩
    have e : (List.map QName.ofCppName exPodCfg.podRequests).reverse = [⟨[], "Line"⟩] := by decide
    have g : ∀ {q k d}, AMap.get? (AMap.insert r k d) q = if k = q then some d else AMap.get? r q :=
      fun {q k d} => AMap.get?_insert _ _ _ _
    refine ⟨_, by
      simp only [e]
      rw [satisfy_safe h1, List.reverse_singleton, List.singleton_append, satisfy_safe (by
        rw [AMap.get?_insert, if_neg (by decide)]; exact h2), List.reverse_singleton, List.singleton_append,
        satisfy_pod (by rw [AMap.get?_insert, if_neg (by decide), AMap.get?_insert, if_neg (by decide)]; exact h3),
        satisfy_nil], ?_, ?_, ?_, ?_, ?_, ?_⟩
    · simp [ByValue.isPod, AMap.get?_insert]
    · simp [ByValue.isPod, AMap.get?_insert]
    · rw [← h4]; simp [ByValue.isPod, AMap.get?_insert]
    · rw [← h5]; simp [ByValue.isPod, AMap.get?_insert]
    · rw [← h6]; simp [ByValue.isPod, AMap.get?_insert]
    · rw [← h7]; simp [ByValue.isPod, AMap.get?_insert]

/-- What the pass makes of the example. -/
def exPodOut : List PodApi :=
  [.struct ⟨⟨[], "Point"⟩, none⟩ { fields := [("x", true, .path ["root", "std", "os", "raw", "c_int"] [])] }
     { kind := .pod
       fieldInfo := [⟨.path ["autocxx", "c_int"] [], .regular, false⟩]
       fieldDeps := [⟨["std", "os", "raw"], "c_int"⟩]
       fieldDefinitionDeps := [⟨["autocxx"], "c_int"⟩] },
   .struct ⟨⟨[], "Line"⟩, none⟩ { fields := [("a", true, .path ["root", "Point"] [])] }
     { kind := .pod
       fieldInfo := [⟨.path ["output", "Point"] [], .regular, false⟩]
       fieldDeps := [⟨[], "Point"⟩]
       fieldDefinitionDeps := [⟨[], "Point"⟩] },
   .struct ⟨⟨["a"], "D"⟩, none⟩ { fields :=
     [("_base", true, .path ["root", "Point"] []), ("_base_1", false, .path ["root", "Line"] []),
      ("v", true, .path ["root", "Foo"] [.path ["root", "Point"] []]), ("w", true, .path ["root", "Secret"] [])] }
     { kind := .nonPod
       bases := [⟨[], "Point"⟩, ⟨[], "Line"⟩]
       castableBases := [⟨[], "Point"⟩]
       fieldInfo := [⟨.path ["output", "Foo_Point_AutocxxConcrete"] [], .regular, false⟩]
       fieldDeps := [⟨[], "Foo"⟩, ⟨[], "Foo_Point_AutocxxConcrete"⟩]
       fieldDefinitionDeps := [⟨[], "Foo_Point_AutocxxConcrete"⟩] },
   .struct ⟨⟨[], "Blob"⟩, none⟩ { fields := [("_bindgen_opaque_blob", true, .array (.path ["u8"] []) "8usize")] }
     { kind := .opaque
       fieldInfo := [⟨.array (.path ["u8"] []) "8usize", .regular, true⟩]
       fieldDeps := [⟨[], "u8"⟩] },
   .ignoredItem ⟨⟨[], "Private"⟩, none⟩ .nonPublicNestedType (some (.item "Private")),
   .enum ⟨⟨[], "E"⟩, none⟩ "enum E {}",
   .concreteType ⟨⟨[], "Foo_Point_AutocxxConcrete"⟩, none⟩
     (some (.path ["output", "Foo"] [.path ["root", "Point"] []])) "Foo<Point>"]

theorem exPod_result : ∃ v, analyzePodApis 5 (fun _ => 0) exPodCfg exPodAttrs exPodApis = .done (.ok v) ∧
    v.apis = exPodOut := by
  obtain ⟨r, hr, h1, h2, h3, h4, h5, h6⟩ := exPod_settled
  have hc : ∀ a ∈ exPodApis.apis, ∀ s,
      podStep (podEnv exPodCfg exPodApis) 5 (fun _ => 0) exPodAttrs r s a =
      podStep (podEnv exPodCfg exPodApis) 5 (fun _ => 0) exPodAttrs
        [(⟨[], "Point"⟩, ⟨.isPod, []⟩), (⟨[], "Line"⟩, ⟨.isPod, []⟩), (⟨[], "E"⟩, ⟨.isPod, []⟩)] s a := by
    intro a ha s
    have hn : a.name ∈ exPodApis.apis.map (·.name) := List.mem_map.2 ⟨a, ha, rfl⟩
    have hl : exPodApis.apis.map (·.name) = [⟨[], "Point"⟩, ⟨[], "Line"⟩, ⟨["a"], "D"⟩, ⟨[], "Blob"⟩,
      ⟨[], "Private"⟩, ⟨[], "E"⟩] := by decide
    rw [hl] at hn
    refine podStep_congr (fun n d u he => ?_) s
    subst he
    simp only [List.mem_cons, List.not_mem_nil, or_false] at hn
    change n.name = _ ∨ n.name = _ ∨ n.name = _ ∨ n.name = _ ∨ n.name = _ ∨ n.name = _ at hn
    rcases hn with e | e | e | e | e | e
    · rw [e, h1]; decide
    · rw [e, h2]; decide
    · rw [e, h3]; decide
    · rw [e, h4]; decide
    · rw [e, h5]; decide
    · rw [e, h6]; decide
  have he := runPass_congr hc { concretes := findConcretes exPodApis.apis }
  unfold analyzePodApis
  rw [hr]
  dsimp only
  change ∃ v, (match runPass (podStep (podEnv exPodCfg exPodApis) 5 (fun _ => 0) exPodAttrs r)
      { concretes := findConcretes exPodApis.apis } exPodApis.apis with
    | (s, r) => r.bind fun l => (addAnalyses s.extra.apis).bind fun e =>
      PassRun.done (Except.ok (ε := String) ((ApiVec.fromIter l).extend (ApiVec.fromIter e).apis))) = _ ∧ _
  rw [he]
  have hd : (match runPass (podStep (podEnv exPodCfg exPodApis) 5 (fun _ => 0) exPodAttrs
      [(⟨[], "Point"⟩, ⟨.isPod, []⟩), (⟨[], "Line"⟩, ⟨.isPod, []⟩), (⟨[], "E"⟩, ⟨.isPod, []⟩)])
      { concretes := findConcretes exPodApis.apis } exPodApis.apis with
    | (s, .done l) => match addAnalyses (T := TypedefAnalysis) (S := PodAnalysis) (F := Unit) s.extra.apis with
      | .done e => some ((ApiVec.fromIter l).extend (ApiVec.fromIter e).apis).apis
      | _ => none
    | _ => none) = some exPodOut := by decide_known
  revert hd
  generalize runPass _ _ _ = x
  obtain ⟨s, q⟩ := x
  cases q with
  | panic => intro h; cases h
  | diverges => intro h; cases h
  | done l =>
    dsimp only [PassRun.bind]
    cases addAnalyses (T := TypedefAnalysis) (S := PodAnalysis) (F := Unit) s.extra.apis with
    | panic => intro h; cases h
    | diverges => intro h; cases h
    | done e => intro h; exact ⟨_, rfl, Option.some.inj h⟩

end Verif
