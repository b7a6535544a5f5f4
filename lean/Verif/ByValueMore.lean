import Verif.ByValueProps

/-!
# C10, C11: refusals, and the cases in which the properties fail
-/

set_option autoImplicit false

namespace Verif

theorem ingestStructs_none (l : List TypedefApi) (r r' : ByValue) (h : ingestStructs l r = some r')
    (q : QName) (hq : r'.get? q = none) :
    r.get? q = none ∧ ∀ n d a, Api.struct n d a ∈ l → n.name ≠ q := by
  induction l generalizing r with
  | nil => simp only [ingestStructs, Option.some.injEq] at h; subst h; simp [hq]
  | cons a l ih =>
    cases a with
    | struct n d an =>
      simp only [ingestStructs, Option.bind_eq_some_iff] at h
      obtain ⟨fs, _, h⟩ := h
      obtain ⟨h1, h2⟩ := ih _ h
      rw [AMap.get?_insert] at h1
      split at h1
      · cases h1
      · rename_i hne
        refine ⟨h1, ?_⟩
        intro n' d' a' hm
        rcases List.mem_cons.1 hm with e | hm
        · cases e; exact hne
        · exact h2 n' d' a' hm
    | _ =>
      simp only [ingestStructs] at h
      obtain ⟨h1, h2⟩ := ih _ h
      refine ⟨h1, ?_⟩
      intro n' d' a' hm
      rcases List.mem_cons.1 hm with e | hm
      · cases e
      · exact h2 n' d' a' hm

theorem name_unique {l : List TypedefApi} (hn : (l.map (·.name)).Nodup) {a b : TypedefApi}
    (ha : a ∈ l) (hb : b ∈ l) (e : a.name = b.name) : a = b := by
  induction l with
  | nil => cases ha
  | cons c l ih =>
    rw [List.map_cons, List.nodup_cons] at hn
    rcases List.mem_cons.1 ha with ha | ha <;> rcases List.mem_cons.1 hb with hb | hb
    · rw [ha, hb]
    · rw [ha] at e; exact absurd (List.mem_map.2 ⟨b, hb, e.symm⟩) hn.1
    · rw [hb] at e; exact absurd (List.mem_map.2 ⟨a, ha, e⟩) hn.1
    · exact ih hn.2 ha hb

theorem unsafe_unusable (apis : List TypedefApi) (cfg : Config) (rk rn : ByValue)
    (h1 : byValueNew = some rk)
    (h2 : ingestNonStructs apis (ingestBlocklist rk cfg.blocklist) = some rn)
    (hn : (apis.map (·.name)).Nodup) (k : Nat) :
    ∀ pre post r1, pre.length = k → apis = pre ++ post → ingestStructs pre rn = some r1 →
      ∀ f d m, r1.get? f = some d → d.state = .unsafePod m → Unusable apis cfg f := by
  induction k with
  | zero =>
    intro pre post r1 hl e hr f d m hf hd
    have : pre = [] := List.length_eq_zero_iff.1 hl
    subst this
    simp only [ingestStructs, Option.some.injEq] at hr; subst hr
    rcases recorded_nonstruct apis cfg rk rn h1 h2 hn f with
      ⟨n, i, o, a, s, hm, hnq, hs', hg⟩ | ⟨hp, hg⟩ | ⟨_, _, ⟨hb, m, hg⟩ | ⟨kd, hk, hg⟩ | ⟨_, hg⟩⟩
    · rw [hf] at hg; cases hg
      rcases typedefPodState_inv hs' with ⟨_, _, _, _, _, _, _, _, _, _, e⟩ | ⟨_, hno⟩
      · rw [show s = _ from hd] at e; cases e
      · subst hnq
        refine .complexTypedef hm ?_
        rintro kd ⟨n', i', o', a', segs, args, t, hm', hn', ht, hp, hk⟩
        have := name_unique hn hm hm' hn'.symm
        cases this
        exact hno segs args t kd ht hp hk
    · rw [hf] at hg; cases hg; cases hd
    · obtain ⟨s, hs, rfl⟩ := List.mem_map.1 hb
      exact .blocked hs
    · refine .builtin hk ?_
      intro hsafe
      rw [hf] at hg; cases hg
      simp [knownPodState, hsafe] at hd
    · rw [hf] at hg; cases hg
  | succ k ih =>
    intro pre post r1 hl e hr f d m hf hd
    rcases List.eq_nil_or_concat pre with rfl | ⟨pre', a, rfl⟩
    · cases hl
    rw [List.concat_eq_append] at *
    rw [ingestStructs_append, Option.bind_eq_some_iff] at hr
    obtain ⟨r0, hr0, hr⟩ := hr
    have hl' : pre'.length = k := by simpa using hl
    have e' : apis = pre' ++ a :: post := by rw [e]; simp
    have ih := ih pre' (a :: post) r0 hl' e' hr0
    cases a with
    | struct n det an =>
      simp only [ingestStructs, Option.bind_eq_some_iff, Option.some.injEq] at hr
      obtain ⟨fs, hfs, rfl⟩ := hr
      rw [AMap.get?_insert] at hf
      split at hf
      · rename_i hne; subst hne
        cases hf
        have hm : Api.struct n det () ∈ apis := by rw [e']; simp
        rcases structPod_cases r0 n.name det fs with ⟨e1, _⟩ | ⟨m', e1, hv | ⟨g, hg, hgr⟩⟩
        · rw [e1] at hd; cases hd
        · obtain ⟨⟨id, vis, t⟩, hmem, hid⟩ := List.any_eq_true.1 hv
          simp only [decide_eq_true_eq] at hid
          subst hid
          exact .vtable hm hmem
        · have hpf := (mem_fieldPathTypes hfs g).1 hg
          cases hgg : r0.get? g with
          | some dg =>
            obtain ⟨m', hm'⟩ := hgr dg hgg
            exact .field hm hpf (ih g dg m' hgg hm')
          | none =>
            obtain ⟨hrn, hpre⟩ := ingestStructs_none _ _ _ hr0 g hgg
            refine .lateField e' hpf (fun n d hm => hpre n d () hm) ?_
            rcases recorded_nonstruct apis cfg rk rn h1 h2 hn g with
              ⟨_, _, _, _, _, _, _, _, hg'⟩ | ⟨_, hg'⟩ | ⟨ht, hp, ⟨_, m, hg'⟩ | ⟨kd, _, hg'⟩ | ⟨hk, _⟩⟩
            · rw [hrn] at hg'; cases hg'
            · rw [hrn] at hg'; cases hg'
            · rw [hrn] at hg'; cases hg'
            · rw [hrn] at hg'; cases hg'
            · exact ⟨hk, hp, ht⟩
      · exact ih f d m hf hd
    | _ =>
      simp only [ingestStructs, Option.some.injEq] at hr
      subst hr
      exact ih f d m hf hd

/-- **C11 (refusals)**: when resolving the requests fails, some wanted type is unusable. -/
theorem pod_refused (apis : List TypedefApi) (cfg : Config) (msg : String)
    (hn : (apis.map (·.name)).Nodup) (hb : NoBuiltinNames apis)
    (h : byValueFromApis apis cfg = .err msg) :
    ∃ q, Wanted apis cfg q ∧ Unusable apis cfg q := by
  unfold byValueFromApis at h
  split at h
  · cases h
  · rename_i r0 h0
    have hp := satisfy_requests_post r0 (cfg.podRequests.map QName.ofCppName)
      (aliases_settled apis cfg r0 h0 hn hb).1
    rw [h] at hp
    obtain ⟨q, hneed, hq⟩ := hp
    refine ⟨q, needs_wanted apis cfg r0 h0 hn hneed, ?_⟩
    obtain ⟨rk, rn, h1, h2, h3⟩ := ingested_of apis cfg r0 h0
    rcases hq with ⟨hnone, _⟩ | ⟨ds, hu⟩ | ⟨t, ds, dt, hal, ht, hu⟩
    · obtain ⟨hrn, hpre⟩ := ingestStructs_none _ _ _ h3 q hnone
      refine .unknown (fun n d hm => hpre n d () hm) ?_
      rcases recorded_nonstruct apis cfg rk rn h1 h2 hn q with
        ⟨_, _, _, _, _, _, _, _, hg'⟩ | ⟨_, hg'⟩ | ⟨ht, hp, ⟨_, m, hg'⟩ | ⟨kd, _, hg'⟩ | ⟨hk, _⟩⟩
      · rw [hrn] at hg'; cases hg'
      · rw [hrn] at hg'; cases hg'
      · rw [hrn] at hg'; cases hg'
      · rw [hrn] at hg'; cases hg'
      · exact ⟨hk, hp, ht⟩
    · exact unsafe_unusable apis cfg rk rn h1 h2 hn _ apis [] r0 rfl (by simp) h3 q _ msg hu rfl
    · exact .unsafeAlias (unsafe_alias_of apis cfg r0 h0 hn hb hal ht hu)

/-- Every path which the checker looks at has a last segment apart from `root`. -/
def PathsOk (apis : List TypedefApi) : Prop :=
  (∀ n i o a segs args, Api.typedef n i o a ∈ apis → a.target = .path segs args →
    QName.ofTypePath segs ≠ none) ∧
  (∀ n d id vis segs args, Api.struct n d () ∈ apis → (id, vis, Ty.path segs args) ∈ d.fields →
    QName.ofTypePath segs ≠ none)

theorem nonStructs_total (l : List TypedefApi) (r : ByValue) (h : PathsOk l) :
    ∃ r', ingestNonStructs l r = some r' := by
  induction l generalizing r with
  | nil => exact ⟨r, rfl⟩
  | cons a l ih =>
    have h' : PathsOk l :=
      ⟨fun n i o a segs args hm => h.1 n i o a segs args (by simp [hm]),
        fun n d id vis segs args hm => h.2 n d id vis segs args (by simp [hm])⟩
    cases a with
    | typedef n i o an =>
      have : ∃ s, typedefPodState n.name an.target = some s := by
        cases ht : an.target with
        | path segs args =>
          have := h.1 n i o an segs args (by simp) ht
          obtain ⟨t, hp⟩ := Option.ne_none_iff_exists'.1 this
          simp only [typedefPodState, hp, Option.bind_some]
          cases hk : knownGet t with
          | none => exact ⟨_, by simp only [considerSubstitution, hk]; rfl⟩
          | some kd =>
            obtain ⟨tp, htp, _⟩ := alias_target hk
            exact ⟨.alias tp, by simp only [considerSubstitution, hk, Option.map_some]; rw [htp]; rfl⟩
        | _ => exact ⟨_, rfl⟩
      obtain ⟨s, hs⟩ := this
      simp only [ingestNonStructs, hs, Option.bind_some]
      exact ih _ h'
    | externCppType n p o => cases p <;> simp only [ingestNonStructs] <;> exact ih _ h'
    | _ => simp only [ingestNonStructs]; exact ih _ h'

theorem fieldPathTypes_total (l : List (Ident × Bool × Ty))
    (h : ∀ id vis segs args, (id, vis, Ty.path segs args) ∈ l → QName.ofTypePath segs ≠ none) :
    ∃ fs, fieldPathTypes l = some fs := by
  induction l with
  | nil => exact ⟨[], rfl⟩
  | cons x l ih =>
    obtain ⟨id, vis, t⟩ := x
    obtain ⟨fs, hfs⟩ := ih fun id vis segs args hm => h id vis segs args (by simp [hm])
    cases t with
    | path segs args =>
      obtain ⟨q, hq⟩ := Option.ne_none_iff_exists'.1 (h id vis segs args (by simp))
      exact ⟨q :: fs, by simp [fieldPathTypes, hq, hfs]⟩
    | _ => exact ⟨fs, hfs⟩

theorem structs_total (l : List TypedefApi) (r : ByValue) (h : PathsOk l) :
    ∃ r', ingestStructs l r = some r' := by
  induction l generalizing r with
  | nil => exact ⟨r, rfl⟩
  | cons a l ih =>
    have h' : PathsOk l :=
      ⟨fun n i o a segs args hm => h.1 n i o a segs args (by simp [hm]),
        fun n d id vis segs args hm => h.2 n d id vis segs args (by simp [hm])⟩
    cases a with
    | struct n d an =>
      obtain ⟨fs, hfs⟩ := fieldPathTypes_total d.fields
        fun id vis segs args hm => h.2 n d id vis segs args (by simp) hm
      simp only [ingestStructs, hfs, Option.bind_some]
      exact ih _ h'
    | _ => simp only [ingestStructs]; exact ih _ h'

/-- **C11 (acceptance)**: when no wanted type is unusable, resolving the requests succeeds and makes
every wanted type POD. -/
theorem pod_accepted (apis : List TypedefApi) (cfg : Config)
    (hn : (apis.map (·.name)).Nodup) (hb : NoBuiltinNames apis) (hp : PathsOk apis)
    (hw : ∀ q, Wanted apis cfg q → ¬ Unusable apis cfg q) :
    ∃ r, byValueFromApis apis cfg = .ok r ∧ ∀ q, Wanted apis cfg q → r.isPod q = true := by
  cases h : byValueFromApis apis cfg with
  | ok r =>
    refine ⟨r, rfl, fun q hq => ?_⟩
    exact (pod_requests_honoured_partial apis cfg r hn hb h q hq).resolve_right
      fun hu => hw q hq (.unsafeAlias hu)
  | err msg =>
    obtain ⟨q, hq, hu⟩ := pod_refused apis cfg msg hn hb h
    exact absurd hu (hw q hq)
  | loops => exact absurd h (pod_terminates apis cfg hn hb)
  | panic =>
    exfalso
    obtain ⟨rk, h1, _⟩ := by_value_new
    obtain ⟨rn, h2⟩ := nonStructs_total apis (ingestBlocklist rk cfg.blocklist) hp
    obtain ⟨r, h3⟩ := structs_total apis rn hp
    unfold byValueFromApis byValueIngest at h
    rw [h1, Option.bind_some, h2, Option.bind_some, h3] at h
    have := satisfy_requests_post r (cfg.podRequests.map QName.ofCppName)
      (aliases_settled apis cfg r (by unfold byValueIngest; rw [h1, Option.bind_some, h2, Option.bind_some, h3]) hn hb).1
    simp only at h
    rw [h] at this; exact this

/-! ## Witnesses -/

theorem satisfy_nil (r : ByValue) : satisfyRequests r [] = .ok r := by rw [satisfyRequests]

theorem satisfy_none {r : ByValue} {q : QName} {rest : List QName} (h : r.get? q = none) :
    satisfyRequests r (q :: rest) =
      .err s!"Unable to make {q.display} POD because we never saw a struct definition" := by
  rw [satisfyRequests]; split <;> simp_all

theorem satisfy_unsafe {r : ByValue} {q : QName} {rest ds : List QName} {m : String}
    (h : r.get? q = some ⟨.unsafePod m, ds⟩) : satisfyRequests r (q :: rest) = .err m := by
  rw [satisfyRequests]; split <;> simp_all

theorem satisfy_pod {r : ByValue} {q : QName} {rest ds : List QName}
    (h : r.get? q = some ⟨.isPod, ds⟩) : satisfyRequests r (q :: rest) = satisfyRequests r rest := by
  rw [satisfyRequests]; split <;> simp_all

theorem satisfy_safe {r : ByValue} {q : QName} {rest ds : List QName}
    (h : r.get? q = some ⟨.safe, ds⟩) : satisfyRequests r (q :: rest) =
      satisfyRequests (r.insert q ⟨.isPod, ds⟩) (ds.reverse ++ rest) := by
  rw [satisfyRequests]; split <;> simp_all

theorem satisfy_alias {r : ByValue} {q t : QName} {rest ds : List QName} {dt : PodDetails}
    (h : r.get? q = some ⟨.alias t, ds⟩) (ht : r.get? t = some dt) : satisfyRequests r (q :: rest) =
      satisfyRequests (r.insert q ⟨dt.state, ds⟩) rest := by
  rw [satisfyRequests]; split <;> simp_all

/-- `typedef std::string MyStr;`, as bindgen and the typedef analysis present it. -/
def myStr : TypedefApi :=
  .typedef ⟨⟨[], "MyStr"⟩, none⟩ { ty := .path ["root", "std", "string"] [] } none
    ⟨.path ["cxx", "CxxString"] [], []⟩

/-- `struct Holder { MyStr s; };` -/
def holder : TypedefApi :=
  .struct ⟨⟨[], "Holder"⟩, none⟩ { fields := [("s", true, .path ["root", "MyStr"] [])] } ()

/-- `struct Arr { std::string s[2]; };` -/
def arr : TypedefApi :=
  .struct ⟨⟨[], "Arr"⟩, none⟩ { fields := [("s", true, .array (.path ["cxx", "CxxString"] []) "2usize")] } ()

/-- `struct Point { int x; };` and `struct Line { Point a; };` -/
def point : TypedefApi :=
  .struct ⟨⟨[], "Point"⟩, none⟩ { fields := [("x", true, .path ["root", "std", "os", "raw", "c_int"] [])] } ()
def line : TypedefApi :=
  .struct ⟨⟨[], "Line"⟩, none⟩ { fields := [("a", true, .path ["root", "Point"] [])] } ()

theorem known_cxx_string : ∃ kd, knownGet ⟨["cxx"], "CxxString"⟩ = some kd ∧ ¬ SpecByValueSafe kd ∧
    kd.toTypePath = ["cxx", "CxxString"] := by
  rw [knownGet_eq_lit]
  have : OptAll (fun kd => ¬ SpecByValueSafe kd ∧ kd.toTypePath = ["cxx", "CxxString"])
    (knownTypesLit.get ⟨["cxx"], "CxxString"⟩) := by decide +kernel
  revert this
  cases knownTypesLit.get ⟨["cxx"], "CxxString"⟩ with
  | none => exact False.elim
  | some kd => exact fun h => ⟨kd, rfl, h⟩

theorem known_c_int : ∃ kd, knownGet ⟨["std", "os", "raw"], "c_int"⟩ = some kd ∧ SpecByValueSafe kd := by
  rw [knownGet_eq_lit]
  have : OptAll (fun kd => SpecByValueSafe kd)
    (knownTypesLit.get ⟨["std", "os", "raw"], "c_int"⟩) := by decide +kernel
  revert this
  cases knownTypesLit.get ⟨["std", "os", "raw"], "c_int"⟩ with
  | none => exact False.elim
  | some kd => exact fun h => ⟨kd, rfl, h⟩

theorem no_builtin_of (l : List TypedefApi)
    (h : l.all (fun a => (knownTypesLit.get a.name).isNone) = true) : NoBuiltinNames l := by
  rintro a ha ⟨kd, hk, _⟩
  have := List.all_eq_true.1 h a ha
  rw [knownGet_eq_lit] at hk
  rw [hk] at this; cases this

set_option maxRecDepth 4000 in
theorem witness_no_builtin : NoBuiltinNames [myStr, holder, arr, point, line] :=
  no_builtin_of _ (by decide +kernel)

/-- What is recorded for `MyStr` and `Holder`. -/
theorem holder_recorded (reqs : List String) : ∃ r m, byValueIngest [myStr, holder] { podRequests := reqs } = some r ∧
    r.get? ⟨[], "MyStr"⟩ = some ⟨.alias ⟨["cxx"], "CxxString"⟩, []⟩ ∧
    r.get? ⟨["cxx"], "CxxString"⟩ = some ⟨.unsafePod m, []⟩ ∧
    r.get? ⟨[], "Holder"⟩ = some ⟨.safe, [⟨[], "MyStr"⟩]⟩ := by
  obtain ⟨rk, hrk, hspec⟩ := by_value_new
  obtain ⟨kd, hk, hs, hp⟩ := known_cxx_string
  have hc : considerSubstitution ⟨["cxx"], "CxxString"⟩ = some ["cxx", "CxxString"] := by
    simp [considerSubstitution, hk, hp]
  have hg := (hspec ⟨["cxx"], "CxxString"⟩ _).2 ⟨kd, hk, rfl⟩
  simp only [hs, decide_false, knownPodState, Bool.false_eq_true, if_false] at hg
  refine ⟨_, s!"type {QName.display ⟨["cxx"], "CxxString"⟩} is not safe for POD", by
    simp [byValueIngest, hrk, ingestBlocklist, myStr, holder, ingestNonStructs, ingestStructs,
      typedefPodState, QName.ofTypePath, QName.fromSegs, hc, fieldPathTypes, structPod, hasVtable,
      fieldSafety, AMap.get?_insert]; rfl, ?_, ?_, ?_⟩
  · simp [AMap.get?_insert]
  · rw [AMap.get?_insert_of_ne _ _ (by decide), AMap.get?_insert_of_ne _ _ (by decide), hg]
  · simp [AMap.get?_insert]

/-- **C11 is false**: a request to make a typedef of `std::string` POD is neither honoured nor
refused. -/
theorem pod_request_ignored_false : ∃ apis cfg r, (apis.map Api.name).Nodup ∧ NoBuiltinNames apis ∧
    byValueFromApis apis cfg = .ok r ∧ "MyStr" ∈ cfg.podRequests ∧
    ByValue.isPod r (QName.ofCppName "MyStr") = false := by
  obtain ⟨r, m, h0, h1, h2, h3⟩ := holder_recorded ["MyStr"]
  refine ⟨[myStr, holder], { podRequests := ["MyStr"] }, r.insert ⟨[], "MyStr"⟩ ⟨.unsafePod m, []⟩,
    by decide, ?_, ?_, by simp, ?_⟩
  · exact fun a ha => witness_no_builtin a (by simp at ha; rcases ha with rfl | rfl <;> simp)
  · rw [byValueFromApis, h0]
    have e : (List.map QName.ofCppName ["MyStr"]).reverse = [⟨[], "MyStr"⟩] := by decide
    simp only [e]
    rw [satisfy_alias h1 h2, satisfy_nil]
  · have e : QName.ofCppName "MyStr" = ⟨[], "MyStr"⟩ := by decide
    rw [e, ByValue.isPod, AMap.get?_insert_self]

/-- **C10 is false**: a struct with a field whose type is a typedef of `std::string` is treated as
POD on request. -/
theorem pod_typedef_field_false : ∃ apis cfg r, (apis.map Api.name).Nodup ∧ NoBuiltinNames apis ∧
    byValueFromApis apis cfg = .ok r ∧ ByValue.isPod r ⟨[], "Holder"⟩ = true ∧
    ∃ n d f kd, Api.struct n d () ∈ apis ∧ n.name = ⟨[], "Holder"⟩ ∧ PathField d f ∧
      TypedefOfBuiltin apis f kd ∧ ¬ SpecByValueSafe kd := by
  obtain ⟨r, m, h0, h1, h2, h3⟩ := holder_recorded ["Holder"]
  obtain ⟨kd, hk, hs, _⟩ := known_cxx_string
  refine ⟨[myStr, holder], { podRequests := ["Holder"] },
    (r.insert ⟨[], "Holder"⟩ ⟨.isPod, [⟨[], "MyStr"⟩]⟩).insert ⟨[], "MyStr"⟩ ⟨.unsafePod m, []⟩,
    by decide, ?_, ?_, ?_, ?_⟩
  · exact fun a ha => witness_no_builtin a (by simp at ha; rcases ha with rfl | rfl <;> simp)
  · rw [byValueFromApis, h0]
    have e : (List.map QName.ofCppName ["Holder"]).reverse = [⟨[], "Holder"⟩] := by decide
    simp only [e]
    rw [satisfy_safe h3]
    have h1' : (r.insert ⟨[], "Holder"⟩ ⟨.isPod, [⟨[], "MyStr"⟩]⟩).get? ⟨[], "MyStr"⟩ =
        some ⟨.alias ⟨["cxx"], "CxxString"⟩, []⟩ := by simp [AMap.get?_insert, h1]
    have h2' : (r.insert ⟨[], "Holder"⟩ ⟨.isPod, [⟨[], "MyStr"⟩]⟩).get? ⟨["cxx"], "CxxString"⟩ =
        some ⟨.unsafePod m, []⟩ := by simp [AMap.get?_insert, h2]
    simp only [List.reverse_cons, List.reverse_nil, List.nil_append, List.append_nil]
    rw [satisfy_alias h1' h2', satisfy_nil]
  · simp [ByValue.isPod, AMap.get?_insert]
  · exact ⟨⟨⟨[], "Holder"⟩, none⟩, { fields := [("s", true, .path ["root", "MyStr"] [])] }, ⟨[], "MyStr"⟩, kd,
      .tail _ (.head _), rfl,
      ⟨"s", true, ["root", "MyStr"], [], by simp, by decide⟩,
      ⟨⟨⟨[], "MyStr"⟩, none⟩, { ty := .path ["root", "std", "string"] [] }, none, ⟨.path ["cxx", "CxxString"] [], []⟩,
        ["cxx", "CxxString"], [], ⟨["cxx"], "CxxString"⟩, .head _, rfl, rfl, by decide, hk⟩, hs⟩

/-- **C10 is false**: a struct holding an array of `std::string` is treated as POD on request. -/
theorem pod_array_field_false : ∃ apis cfg r, (apis.map Api.name).Nodup ∧ NoBuiltinNames apis ∧
    byValueFromApis apis cfg = .ok r ∧ ByValue.isPod r ⟨[], "Arr"⟩ = true ∧
    ∃ n d id vis segs len t kd, Api.struct n d () ∈ apis ∧ n.name = ⟨[], "Arr"⟩ ∧
      (id, vis, Ty.array (.path segs []) len) ∈ d.fields ∧ QName.ofTypePath segs = some t ∧
      knownGet t = some kd ∧ ¬ SpecByValueSafe kd := by
  obtain ⟨rk, hrk, hspec⟩ := by_value_new
  obtain ⟨kd, hk, hs, _⟩ := known_cxx_string
  have h0 : byValueIngest [arr] { podRequests := ["Arr"] } =
      some (rk.insert ⟨[], "Arr"⟩ ⟨.safe, []⟩) := by
    simp [byValueIngest, hrk, ingestBlocklist, arr, ingestNonStructs, ingestStructs,
      fieldPathTypes, structPod, hasVtable, fieldSafety]
  have h3 : (rk.insert ⟨[], "Arr"⟩ ⟨.safe, []⟩).get? ⟨[], "Arr"⟩ = some ⟨.safe, []⟩ :=
    AMap.get?_insert_self _ _ _
  refine ⟨[arr], { podRequests := ["Arr"] },
    (rk.insert ⟨[], "Arr"⟩ ⟨.safe, []⟩).insert ⟨[], "Arr"⟩ ⟨.isPod, []⟩, by decide, ?_, ?_, ?_, ?_⟩
  · exact fun a ha => witness_no_builtin a (by simp at ha; subst ha; simp)
  · rw [byValueFromApis, h0]
    have e : (List.map QName.ofCppName ["Arr"]).reverse = [⟨[], "Arr"⟩] := by decide
    simp only [e]
    rw [satisfy_safe h3, List.reverse_nil, List.nil_append, satisfy_nil]
  · simp [ByValue.isPod, AMap.get?_insert]
  · exact ⟨⟨⟨[], "Arr"⟩, none⟩, _, "s", true, ["cxx", "CxxString"], "2usize", ⟨["cxx"], "CxxString"⟩, kd,
      .head _, rfl, .head _, by decide, hk, hs⟩

/-- Requests are order-dependent: `Line`, which contains a `Point`, is accepted when `Point` comes
first. -/
theorem pod_order_ok : ∃ r, byValueFromApis [point, line] { podRequests := ["Line"] } = .ok r ∧
    r.isPod ⟨[], "Line"⟩ = true ∧ r.isPod ⟨[], "Point"⟩ = true := by
  obtain ⟨rk, hrk, hspec⟩ := by_value_new
  obtain ⟨kd, hk, hs⟩ := known_c_int
  have hg := (hspec ⟨["std", "os", "raw"], "c_int"⟩ _).2 ⟨kd, hk, rfl⟩
  simp only [hs, decide_true, knownPodState, if_true] at hg
  have h0 : byValueIngest [point, line] { podRequests := ["Line"] } =
      some ((rk.insert ⟨[], "Point"⟩ ⟨.safe, [⟨["std", "os", "raw"], "c_int"⟩]⟩).insert ⟨[], "Line"⟩
        ⟨.safe, [⟨[], "Point"⟩]⟩) := by
    simp [byValueIngest, hrk, ingestBlocklist, point, line, ingestNonStructs, ingestStructs,
      fieldPathTypes, structPod, hasVtable, fieldSafety, QName.ofTypePath, QName.fromSegs, hg,
      AMap.get?_insert]
  refine ⟨_, by
    rw [byValueFromApis, h0]
    have e : (List.map QName.ofCppName ["Line"]).reverse = [⟨[], "Line"⟩] := by decide
    simp only [e]
    rw [satisfy_safe (ds := [⟨[], "Point"⟩]) (by simp [AMap.get?_insert])]
    simp only [List.reverse_cons, List.reverse_nil, List.nil_append, List.append_nil]
    rw [satisfy_safe (ds := [⟨["std", "os", "raw"], "c_int"⟩]) (by simp [AMap.get?_insert])]
    simp only [List.reverse_cons, List.reverse_nil, List.nil_append, List.append_nil]
    rw [satisfy_pod (ds := []) (by simp [AMap.get?_insert, hg]), satisfy_nil], ?_, ?_⟩
  · simp [ByValue.isPod, AMap.get?_insert]
  · simp [ByValue.isPod, AMap.get?_insert]

/-- The same two structs in the other order are refused. -/
theorem pod_order_false : ∃ m, byValueFromApis [line, point] { podRequests := ["Line"] } = .err m := by
  obtain ⟨rk, hrk, hspec⟩ := by_value_new
  have hp : rk.get? ⟨[], "Point"⟩ = none := by
    cases h : rk.get? ⟨[], "Point"⟩ with
    | none => rfl
    | some d =>
      obtain ⟨kd, hk, _⟩ := (hspec _ _).1 h
      rw [knownGet_eq_lit] at hk
      have : knownTypesLit.get ⟨[], "Point"⟩ = none := by decide +kernel
      rw [this] at hk; cases hk
  have h0 : ∃ r m, byValueIngest [line, point] { podRequests := ["Line"] } = some r ∧
      r.get? ⟨[], "Line"⟩ = some ⟨.unsafePod m, [⟨[], "Point"⟩]⟩ := by
    refine ⟨_, s!"Type {QName.display ⟨[], "Line"⟩} could not be POD because its dependent type {QName.display ⟨[], "Point"⟩} isn't known", by
      simp [byValueIngest, hrk, ingestBlocklist, point, line, ingestNonStructs, ingestStructs,
        fieldPathTypes, structPod, hasVtable, fieldSafety, QName.ofTypePath, QName.fromSegs, hp]; rfl, ?_⟩
    simp [AMap.get?_insert]
  obtain ⟨r, m, h0, h1⟩ := h0
  refine ⟨m, ?_⟩
  rw [byValueFromApis, h0]
  have e : (List.map QName.ofCppName ["Line"]).reverse = [⟨[], "Line"⟩] := by decide
  simp only [e]
  exact satisfy_unsafe h1

end Verif
