import Verif.ByValue
import Verif.KnownTypesProps
import Verif.Dec

/-!
# C10, C11: plain-old-data types are safe, requests are honoured
-/

set_option autoImplicit false

namespace Verif

/-! ## Resolving requests, starting from what was recorded -/

/-- The types which a list of requests reaches through the fields of safe structs. -/
inductive Needs (r : ByValue) (reqs : List QName) : QName → Prop
  | req {q : QName} (h : q ∈ reqs) : Needs r reqs q
  | field {q f : QName} {ds : List QName} (h : Needs r reqs q) (hs : r.get? q = some ⟨.safe, ds⟩)
      (hf : f ∈ ds) : Needs r reqs f

/-- Every alias leads to an entry which is definitely POD or definitely not. -/
def AliasesSettled (r : ByValue) : Prop :=
  ∀ q t ds, r.get? q = some ⟨.alias t, ds⟩ →
    ∃ dt, r.get? t = some dt ∧ (dt.state = .isPod ∨ ∃ m, dt.state = .unsafePod m)

/-- How an entry may have changed while requests are resolved. -/
inductive Evolved (r0 : ByValue) (reqs : List QName) (q : QName) : Option PodDetails →
    Option PodDetails → Prop
  | same (d : Option PodDetails) : Evolved r0 reqs q d d
  | promoted (ds : List QName) (h : Needs r0 reqs q) :
      Evolved r0 reqs q (some ⟨.safe, ds⟩) (some ⟨.isPod, ds⟩)
  | resolved (ds : List QName) (t : QName) (dt : PodDetails) (h : Needs r0 reqs q)
      (ht : r0.get? t = some dt) (hs : dt.state = .isPod ∨ ∃ m, dt.state = .unsafePod m) :
      Evolved r0 reqs q (some ⟨.alias t, ds⟩) (some ⟨dt.state, ds⟩)

/-- A request which has been dealt with. -/
def Dealt (r0 r : ByValue) (q : QName) : Prop :=
  ∃ d, r.get? q = some d ∧ (d.state = .isPod ∨
    ∃ t ds dt m, r0.get? q = some ⟨.alias t, ds⟩ ∧ r0.get? t = some dt ∧ dt.state = .unsafePod m ∧
      d.state = .unsafePod m)

/-- The invariant of the loop. -/
structure SatInv (r0 : ByValue) (reqs : List QName) (r : ByValue) (stack : List QName) : Prop where
  needs : ∀ q ∈ stack, Needs r0 reqs q
  evolved : ∀ q, Evolved r0 reqs q (r0.get? q) (r.get? q)
  reqs : ∀ q ∈ reqs, q ∈ stack ∨ Dealt r0 r q
  deps : ∀ q ds, r0.get? q = some ⟨.safe, ds⟩ → r.isPod q = true → ∀ f ∈ ds, f ∈ stack ∨ Dealt r0 r f

theorem isPod_iff (r : ByValue) (q : QName) :
    r.isPod q = true ↔ ∃ ds, r.get? q = some ⟨.isPod, ds⟩ := by
  unfold ByValue.isPod
  split
  · rename_i ds h; simp [h]
  · rename_i h
    simp only [Bool.false_eq_true, false_iff, not_exists]
    exact fun ds hd => h ds hd

theorem Evolved.inv {r0 : ByValue} {reqs : List QName} {q : QName} {a b : Option PodDetails}
    (h : Evolved r0 reqs q a b) : a = b ∨
      (∃ ds, a = some ⟨.safe, ds⟩ ∧ b = some ⟨.isPod, ds⟩ ∧ Needs r0 reqs q) ∨
      (∃ ds t dt, a = some ⟨.alias t, ds⟩ ∧ b = some ⟨dt.state, ds⟩ ∧ Needs r0 reqs q ∧
        r0.get? t = some dt ∧ (dt.state = .isPod ∨ ∃ m, dt.state = .unsafePod m)) := by
  cases h with
  | same => exact .inl rfl
  | promoted ds h => exact .inr (.inl ⟨ds, rfl, rfl, h⟩)
  | resolved ds t dt h ht hs => exact .inr (.inr ⟨ds, t, dt, rfl, rfl, h, ht, hs⟩)

/-- What may come out of resolving requests. -/
def SatPost (r0 : ByValue) (reqs : List QName) : PodOutcome → Prop
  | .ok r => SatInv r0 reqs r []
  | .err msg => ∃ q, Needs r0 reqs q ∧
      ((r0.get? q = none ∧
          msg = s!"Unable to make {q.display} POD because we never saw a struct definition") ∨
        (∃ ds, r0.get? q = some ⟨.unsafePod msg, ds⟩) ∨
        (∃ t ds dt, r0.get? q = some ⟨.alias t, ds⟩ ∧ r0.get? t = some dt ∧
          dt.state = .unsafePod msg))
  | .loops => False
  | .panic => False

theorem Dealt.insert_pod {r0 r : ByValue} {f q : QName} (h : Dealt r0 r f)
    (hq : ∀ d, r.get? q = some d → d.state = .safe ∨ ∃ t, d.state = .alias t) (d' : PodDetails) :
    Dealt r0 (r.insert q d') f := by
  obtain ⟨d, hd, hs⟩ := h
  refine ⟨d, ?_, hs⟩
  rw [AMap.get?_insert]
  split
  · rename_i e; subst e
    rcases hq d hd with h1 | ⟨t, h1⟩ <;> rcases hs with h2 | ⟨_, _, _, _, _, _, _, h2⟩ <;>
      rw [h1] at h2 <;> cases h2
  · exact hd

theorem satisfy_post (r0 : ByValue) (reqs : List QName) (ha : AliasesSettled r0) (r : ByValue)
    (stack : List QName) (hi : SatInv r0 reqs r stack) :
    SatPost r0 reqs (satisfyRequests r stack) := by
  fun_induction satisfyRequests r stack
  case case1 r => exact hi
  case case2 r q rest h =>
    refine ⟨q, hi.needs q (by simp), .inl ⟨?_, rfl⟩⟩
    rcases (hi.evolved q).inv with e | ⟨_, _, e, _⟩ | ⟨_, _, _, _, e, _⟩
    · rw [e, h]
    · rw [h] at e; cases e
    · rw [h] at e; cases e
  case case3 r q rest msg ds h =>
    refine ⟨q, hi.needs q (by simp), .inr ?_⟩
    rcases (hi.evolved q).inv with e | ⟨_, _, e, _⟩ | ⟨ds', t, dt, e0, e, _, ht, hs⟩
    · exact .inl ⟨ds, by rw [e, h]⟩
    · rw [h] at e; cases e
    · rw [h] at e; simp only [Option.some.injEq, PodDetails.mk.injEq] at e
      exact .inr ⟨t, ds', dt, e0, ht, e.1.symm⟩
  case case4 r q rest ds h ih =>
    apply ih
    have hq : Dealt r0 r q := ⟨_, h, .inl rfl⟩
    refine ⟨fun x hx => hi.needs x (by simp [hx]), hi.evolved, ?_, ?_⟩
    · intro x hx
      rcases hi.reqs x hx with h1 | h1
      · rcases List.mem_cons.1 h1 with rfl | h1
        · exact .inr hq
        · exact .inl h1
      · exact .inr h1
    · intro x ds' hx hp f hf
      rcases hi.deps x ds' hx hp f hf with h1 | h1
      · rcases List.mem_cons.1 h1 with rfl | h1
        · exact .inr hq
        · exact .inl h1
      · exact .inr h1
  case case5 r q rest ds h ih =>
    apply ih
    have hn : Needs r0 reqs q := hi.needs q (by simp)
    have h0 : r0.get? q = some ⟨.safe, ds⟩ := by
      rcases (hi.evolved q).inv with e | ⟨_, _, e, _⟩ | ⟨_, _, dt, _, e, _, _, hs⟩
      · rw [e, h]
      · rw [h] at e; cases e
      · rw [h] at e
        simp only [Option.some.injEq, PodDetails.mk.injEq] at e
        rw [← e.1] at hs; rcases hs with hs | ⟨m, hs⟩ <;> cases hs
    have hq : Dealt r0 (r.insert q ⟨.isPod, ds⟩) q :=
      ⟨⟨.isPod, ds⟩, AMap.get?_insert_self _ _ _, .inl rfl⟩
    have keep : ∀ f, Dealt r0 r f → Dealt r0 (r.insert q ⟨.isPod, ds⟩) f := fun f hf =>
      hf.insert_pod (fun d hd => by rw [h] at hd; cases hd; exact .inl rfl) _
    refine ⟨?_, ?_, ?_, ?_⟩
    · intro x hx
      rcases List.mem_append.1 hx with hx | hx
      · exact .field hn h0 (List.mem_reverse.1 hx)
      · exact hi.needs x (by simp [hx])
    · intro x
      rw [AMap.get?_insert]
      split
      · rename_i e; subst e; rw [h0]; exact .promoted ds hn
      · exact hi.evolved x
    · intro x hx
      rcases hi.reqs x hx with h1 | h1
      · rcases List.mem_cons.1 h1 with rfl | h1
        · exact .inr hq
        · exact .inl (by simp [h1])
      · exact .inr (keep x h1)
    · intro x ds' hx hp f hf
      by_cases e : q = x
      · subst e; rw [h0] at hx; cases hx; exact .inl (by simp [hf])
      · have hp' : r.isPod x = true := by
          rw [isPod_iff] at hp ⊢
          rwa [AMap.get?_insert_of_ne _ _ e] at hp
        rcases hi.deps x ds' hx hp' f hf with h1 | h1
        · rcases List.mem_cons.1 h1 with rfl | h1
          · exact .inr hq
          · exact .inl (by simp [h1])
        · exact .inr (keep f h1)
  case case6 r q rest t ds h ht =>
    have h0 : r0.get? q = some ⟨.alias t, ds⟩ := by
      rcases (hi.evolved q).inv with e | ⟨_, _, e, _⟩ | ⟨_, _, dt, _, e, _, _, hs⟩
      · rw [e, h]
      · rw [h] at e; cases e
      · rw [h] at e
        simp only [Option.some.injEq, PodDetails.mk.injEq] at e
        rw [← e.1] at hs; rcases hs with hs | ⟨m, hs⟩ <;> cases hs
    obtain ⟨dt, hdt, _⟩ := ha q t ds h0
    rcases (hi.evolved t).inv with e | ⟨_, _, e, _⟩ | ⟨_, _, _, _, e, _⟩
    · rw [ht, hdt] at e; cases e
    · rw [ht] at e; cases e
    · rw [ht] at e; cases e
  case case7 r q rest t ds h dt ht ih =>
    apply ih
    have hn : Needs r0 reqs q := hi.needs q (by simp)
    have h0 : r0.get? q = some ⟨.alias t, ds⟩ := by
      rcases (hi.evolved q).inv with e | ⟨_, _, e, _⟩ | ⟨_, _, dt, _, e, _, _, hs⟩
      · rw [e, h]
      · rw [h] at e; cases e
      · rw [h] at e
        simp only [Option.some.injEq, PodDetails.mk.injEq] at e
        rw [← e.1] at hs; rcases hs with hs | ⟨m, hs⟩ <;> cases hs
    obtain ⟨dt0, hdt0, hst0⟩ := ha q t ds h0
    have hdt : dt0 = dt := by
      rcases (hi.evolved t).inv with e | ⟨_, e, _⟩ | ⟨_, _, _, e, _⟩
      · rw [ht, hdt0] at e; exact Option.some.inj e
      · rw [hdt0] at e; cases e; rcases hst0 with hs | ⟨m, hs⟩ <;> cases hs
      · rw [hdt0] at e; cases e; rcases hst0 with hs | ⟨m, hs⟩ <;> cases hs
    subst hdt
    have hq : Dealt r0 (r.insert q ⟨dt0.state, ds⟩) q := by
      refine ⟨⟨dt0.state, ds⟩, AMap.get?_insert_self _ _ _, ?_⟩
      rcases hst0 with hs | ⟨m, hs⟩
      · exact .inl hs
      · exact .inr ⟨t, ds, dt0, m, h0, hdt0, hs, hs⟩
    have keep : ∀ f, Dealt r0 r f → Dealt r0 (r.insert q ⟨dt0.state, ds⟩) f := fun f hf =>
      hf.insert_pod (fun d hd => by rw [h] at hd; cases hd; exact .inr ⟨_, rfl⟩) _
    refine ⟨fun x hx => hi.needs x (by simp [hx]), ?_, ?_, ?_⟩
    · intro x
      rw [AMap.get?_insert]
      split
      · rename_i e; subst e; rw [h0]; exact .resolved ds t dt0 hn hdt0 hst0
      · exact hi.evolved x
    · intro x hx
      rcases hi.reqs x hx with h1 | h1
      · rcases List.mem_cons.1 h1 with rfl | h1
        · exact .inr hq
        · exact .inl h1
      · exact .inr (keep x h1)
    · intro x ds' hx hp f hf
      have e : q ≠ x := by rintro rfl; rw [h0] at hx; cases hx
      have hp' : r.isPod x = true := by
        rw [isPod_iff] at hp ⊢
        rwa [AMap.get?_insert_of_ne _ _ e] at hp
      rcases hi.deps x ds' hx hp' f hf with h1 | h1
      · rcases List.mem_cons.1 h1 with rfl | h1
        · exact .inr hq
        · exact .inl h1
      · exact .inr (keep f h1)

theorem satisfy_requests_post (r0 : ByValue) (reqs : List QName) (ha : AliasesSettled r0) :
    SatPost r0 reqs (satisfyRequests r0 reqs.reverse) := by
  have hi : SatInv r0 reqs r0 reqs.reverse := by
    refine ⟨fun q hq => .req (List.mem_reverse.1 hq), fun q => .same _,
      fun q hq => .inl (List.mem_reverse.2 hq), ?_⟩
    intro q ds hq hp
    rw [isPod_iff] at hp
    obtain ⟨ds', hp⟩ := hp
    rw [hq] at hp; cases hp
  exact satisfy_post r0 reqs ha r0 _ hi

/-! ## What is recorded about each type -/

/-- A struct with that name, and one of its fields whose type is (a path to) `f`. -/
def PathField (d : StructDetails) (f : QName) : Prop :=
  ∃ id vis segs args, (id, vis, Ty.path segs args) ∈ d.fields ∧ QName.ofTypePath segs = some f

/-- A typedef with that name whose target is the built-in type described by `d`. -/
def TypedefOfBuiltin (apis : List TypedefApi) (q : QName) (d : TypeDetails) : Prop :=
  ∃ n i o a segs args t, Api.typedef n i o a ∈ apis ∧ n.name = q ∧ a.target = .path segs args ∧
    QName.ofTypePath segs = some t ∧ knownGet t = some d

/-- An enum, or a type which the user declared to be an external POD type. -/
def PodItem (apis : List TypedefApi) (q : QName) : Prop :=
  ∃ n : ApiName, n.name = q ∧ ((∃ i, Api.enum n i ∈ apis) ∨ ∃ o, Api.externCppType n true o ∈ apis)

/-- The name under which Rust knows a built-in type, such as `cxx::CxxString` or `u32`. -/
def RustBuiltinName (q : QName) : Prop :=
  ∃ kd, knownGet q = some kd ∧ QName.ofTypePath kd.toTypePath = some q

/-- The Rust names of built-in types keep their meaning: no item reuses one. (parse_bindgen.rs:225-234
guarantees it for structs. Typedefs may well reuse C++ names such as `size_t`.) -/
def NoBuiltinNames (apis : List TypedefApi) : Prop := ∀ a ∈ apis, ¬ RustBuiltinName a.name

set_option maxRecDepth 10000 in
theorem alias_table : ∀ n ∈ knownTypesLit.allNames, ∀ d, knownTypesLit.get n = some d →
    OptAll (fun t => knownTypesLit.get t = some d) (QName.ofTypePath d.toTypePath) := by
  have h : ∀ n ∈ knownTypesLit.allNames, OptAll (fun d =>
      OptAll (fun t => knownTypesLit.get t = some d) (QName.ofTypePath d.toTypePath))
      (knownTypesLit.get n) := by decide +kernel
  intro n hn d hd
  have := h n hn
  rw [hd] at this; exact this

/-- The Rust path of a built-in type is a name of that built-in type. -/
theorem alias_target {q : QName} {d : TypeDetails} (h : knownGet q = some d) :
    ∃ t, QName.ofTypePath d.toTypePath = some t ∧ knownGet t = some d := by
  have := known_forall (fun _ d => OptAll (fun t => knownTypesLit.get t = some d)
    (QName.ofTypePath d.toTypePath)) alias_table h
  cases ht : QName.ofTypePath d.toTypePath with
  | none => rw [ht] at this; exact this.elim
  | some t => rw [ht] at this; exact ⟨t, rfl, by rw [knownGet_eq_lit]; exact this⟩

theorem get?_map_entries {κ α β : Type} [DecidableEq κ] (f : κ → α → β) (m : AMap κ α) (k : κ) :
    AMap.get? (m.map fun e => (e.1, f e.1 e.2)) k = (m.get? k).map (f k) := by
  induction m with
  | nil => rfl
  | cons e m ih =>
    obtain ⟨k', v⟩ := e
    by_cases h : k' = k
    · subst h; simp [AMap.get?]
    · simp [AMap.get?, h, ih]

theorem by_value_new : ∃ r, byValueNew = some r ∧ ∀ q d, r.get? q = some d ↔
    ∃ kd, knownGet q = some kd ∧ d = ⟨knownPodState q (decide (SpecByValueSafe kd)), []⟩ := by
  obtain ⟨m, hm, hspec⟩ := pod_safe_types_spec
  refine ⟨_, by rw [byValueNew, hm]; rfl, ?_⟩
  intro q d
  have e := get?_map_entries (fun (q : QName) b => (⟨knownPodState q b, []⟩ : PodDetails)) m q
  rw [e]
  cases hq : m.get? q with
  | none =>
    simp only [Option.map_none, reduceCtorEq, false_iff, not_exists, not_and]
    intro kd hk
    have := (hspec q (decide (SpecByValueSafe kd))).2 ⟨kd, hk, by simp⟩
    rw [hq] at this; cases this
  | some b =>
    obtain ⟨kd, hk, hb⟩ := (hspec q b).1 hq
    have hb' : b = decide (SpecByValueSafe kd) := by rw [Bool.eq_iff_iff]; simpa using hb
    subst hb'
    simp only [Option.map_some, Option.some.injEq]
    constructor
    · rintro rfl; exact ⟨kd, hk, rfl⟩
    · rintro ⟨kd', hk', rfl⟩; rw [hk] at hk'; cases hk'; rfl

theorem blocklist_get (l : List String) (r : ByValue) (q : QName) :
    (ingestBlocklist r l).get? q =
      if q ∈ l.map QName.ofCppName then
        some ⟨.unsafePod s!"type {q.display} is on the blocklist", []⟩
      else r.get? q := by
  induction l generalizing r with
  | nil => simp [ingestBlocklist]
  | cons b l ih =>
    have := ih (r.insert (QName.ofCppName b)
      ⟨.unsafePod s!"type {(QName.ofCppName b).display} is on the blocklist", []⟩)
    simp only [ingestBlocklist, List.foldl_cons] at this ⊢
    rw [this, AMap.get?_insert]
    by_cases h1 : q ∈ l.map QName.ofCppName
    · have : q ∈ (b :: l).map QName.ofCppName := by simp only [List.map_cons, List.mem_cons]; exact .inr h1
      rw [if_pos h1, if_pos this]
    · by_cases h2 : QName.ofCppName b = q
      · subst h2; rw [if_neg h1]; simp
      · have : q ∉ (b :: l).map QName.ofCppName := by
          simp only [List.map_cons, List.mem_cons, not_or]; exact ⟨fun e => h2 e.symm, h1⟩
        rw [if_neg h1, if_neg this, if_neg h2]

/-- What the first loop records for an item. -/
def nonStructState : TypedefApi → Option PodState
  | .typedef n _ _ a => typedefPodState n.name a.target
  | .enum .. => some .isPod
  | .externCppType _ true _ => some .isPod
  | _ => none

theorem nonStructs_get (l : List TypedefApi) (r r' : ByValue)
    (h : ingestNonStructs l r = some r') (hn : (l.map (·.name)).Nodup) (q : QName) :
    (∀ a ∈ l, a.name = q → ∀ s, nonStructState a = some s → r'.get? q = some ⟨s, []⟩) ∧
    ((∀ a ∈ l, a.name = q → nonStructState a = none) → r'.get? q = r.get? q) := by
  induction l generalizing r with
  | nil => simp only [ingestNonStructs, Option.some.injEq] at h; subst h; simp
  | cons a l ih =>
    rw [List.map_cons, List.nodup_cons] at hn
    have hnq : ∀ b ∈ l, b.name ≠ a.name := fun b hb e => hn.1 (List.mem_map.2 ⟨b, hb, e⟩)
    have key : ∃ r1, ingestNonStructs l r1 = some r' ∧
        (∀ s, nonStructState a = some s → r1 = r.insert a.name ⟨s, []⟩) ∧
        (nonStructState a = none → r1 = r) := by
      cases a with
      | typedef n i o an =>
        simp only [ingestNonStructs, Option.bind_eq_some_iff] at h
        obtain ⟨s, hs, h⟩ := h
        refine ⟨_, h, ?_, ?_⟩
        · intro s' hs'; simp only [nonStructState, hs, Option.some.injEq] at hs'; subst hs'; rfl
        · intro hs'; simp only [nonStructState, hs] at hs'; cases hs'
      | enum n i =>
        simp only [ingestNonStructs] at h
        exact ⟨_, h, by intro s hs; cases hs; rfl, by intro hs; cases hs⟩
      | externCppType n p o =>
        cases p
        · simp only [ingestNonStructs] at h
          exact ⟨_, h, (by intro s hs; cases hs), fun _ => rfl⟩
        · simp only [ingestNonStructs] at h
          exact ⟨_, h, by intro s hs; cases hs; rfl, by intro hs; cases hs⟩
      | _ =>
        simp only [ingestNonStructs] at h
        exact ⟨_, h, (by intro s hs; cases hs), fun _ => rfl⟩
    obtain ⟨r1, h1, hs, hnone⟩ := key
    obtain ⟨ih1, ih2⟩ := ih r1 h1 hn.2
    constructor
    · intro b hb hbq s hbs
      rcases List.mem_cons.1 hb with rfl | hb
      · rw [ih2 (fun c hc hcq => absurd (hcq.trans hbq.symm) (hnq c hc)), hs s hbs, ← hbq]
        exact AMap.get?_insert_self _ _ _
      · exact ih1 b hb hbq s hbs
    · intro hall
      rw [ih2 (fun c hc => hall c (by simp [hc]))]
      cases hst : nonStructState a with
      | none => rw [hnone hst]
      | some s =>
        rw [hs s hst, AMap.get?_insert_of_ne]
        intro e; rw [hall a (by simp) e] at hst; cases hst

theorem structs_get_other (l : List TypedefApi) (r r' : ByValue)
    (h : ingestStructs l r = some r') (q : QName)
    (hq : ∀ n d a, Api.struct n d a ∈ l → n.name ≠ q) : r'.get? q = r.get? q := by
  induction l generalizing r with
  | nil => simp only [ingestStructs, Option.some.injEq] at h; subst h; rfl
  | cons a l ih =>
    have hq' : ∀ n d a, Api.struct n d a ∈ l → n.name ≠ q := fun n d a ha => hq n d a (by simp [ha])
    cases a with
    | struct n d an =>
      simp only [ingestStructs, Option.bind_eq_some_iff] at h
      obtain ⟨fs, _, h⟩ := h
      rw [ih _ h hq', AMap.get?_insert_of_ne _ _ (hq n d an (by simp))]
    | _ => simp only [ingestStructs] at h; exact ih _ h hq'

theorem ingestStructs_append (l m : List TypedefApi) (r : ByValue) :
    ingestStructs (l ++ m) r = (ingestStructs l r).bind (ingestStructs m) := by
  induction l generalizing r with
  | nil => rfl
  | cons a l ih =>
    cases a with
    | struct n d an =>
      simp only [List.cons_append, ingestStructs, Option.bind_assoc]
      congr 1; funext fs; exact ih _
    | _ => simp only [List.cons_append, ingestStructs]; exact ih _

/-- The entry of a struct is computed from what was recorded before it. -/
theorem structs_get (pre post : List TypedefApi) (n : ApiName) (d : StructDetails) (r r' : ByValue)
    (h : ingestStructs (pre ++ .struct n d () :: post) r = some r')
    (hn : ((pre ++ .struct n d () :: post).map (·.name)).Nodup) :
    ∃ r1 fs, ingestStructs pre r = some r1 ∧ fieldPathTypes d.fields = some fs ∧
      r'.get? n.name = some (structPod r1 n.name d fs) := by
  rw [ingestStructs_append, Option.bind_eq_some_iff] at h
  obtain ⟨r1, h1, h⟩ := h
  simp only [ingestStructs, Option.bind_eq_some_iff] at h
  obtain ⟨fs, hfs, h⟩ := h
  refine ⟨r1, fs, h1, hfs, ?_⟩
  rw [structs_get_other _ _ _ h, AMap.get?_insert_self]
  intro n' d' a' hm e
  simp only [List.map_append, List.map_cons, List.nodup_append, List.nodup_cons] at hn
  exact hn.2.1.1 (List.mem_map.2 ⟨_, hm, e⟩)

theorem mem_fieldPathTypes {l : List (Ident × Bool × Ty)} {fs : List QName}
    (h : fieldPathTypes l = some fs) (f : QName) : f ∈ fs ↔
      ∃ id vis segs args, (id, vis, Ty.path segs args) ∈ l ∧ QName.ofTypePath segs = some f := by
  induction l generalizing fs with
  | nil => simp only [fieldPathTypes, Option.some.injEq] at h; subst h; simp
  | cons x l ih =>
    obtain ⟨id, vis, ty⟩ := x
    cases ty with
    | path segs args =>
      simp only [fieldPathTypes, Option.bind_eq_some_iff, Option.map_eq_some_iff] at h
      obtain ⟨q, hq, fs', hfs', rfl⟩ := h
      simp only [List.mem_cons, ih hfs']
      constructor
      · rintro (rfl | ⟨id', vis', segs', args', hm, he⟩)
        · exact ⟨id, vis, segs, args, .inl rfl, hq⟩
        · exact ⟨id', vis', segs', args', .inr hm, he⟩
      · rintro ⟨id', vis', segs', args', hm | hm, he⟩
        · simp only [Prod.mk.injEq, Ty.path.injEq] at hm
          rw [hm.2.2.1, hq] at he; exact .inl (Option.some.inj he).symm
        · exact .inr ⟨id', vis', segs', args', hm, he⟩
    | _ =>
      simp only [fieldPathTypes] at h
      rw [ih h]
      simp

theorem fieldSafety_cases (r : ByValue) (n : QName) (fs : List QName) :
    (fieldSafety r n fs = .safe ∧
      ∀ f ∈ fs, ∃ d, r.get? f = some d ∧ ∀ m, d.state ≠ .unsafePod m) ∨
    (∃ m, fieldSafety r n fs = .unsafePod m ∧
      ∃ f ∈ fs, ∀ d, r.get? f = some d → ∃ m', d.state = .unsafePod m') := by
  induction fs with
  | nil => left; simp [fieldSafety]
  | cons f fs ih =>
    unfold fieldSafety
    split
    · rename_i hf
      right
      split
      · exact ⟨_, rfl, f, by simp, by simp [hf]⟩
      · split
        · exact ⟨_, rfl, f, by simp, by simp [hf]⟩
        · exact ⟨_, rfl, f, by simp, by simp [hf]⟩
    · rename_i reason ds hf
      right
      exact ⟨_, rfl, f, by simp, fun d hd => by rw [hf] at hd; cases hd; exact ⟨reason, rfl⟩⟩
    · rename_i d hne hf
      rcases ih with ⟨h1, h2⟩ | ⟨m, h1, f', hf', h2⟩
      · refine .inl ⟨h1, ?_⟩
        intro g hg
        rcases List.mem_cons.1 hg with rfl | hg
        · refine ⟨d, hf, fun m e => ?_⟩
          obtain ⟨st, ds⟩ := d
          simp only at e; subst e
          exact hne m ds rfl
        · exact h2 g hg
      · exact .inr ⟨m, h1, f', by simp [hf'], h2⟩

theorem structPod_cases (r : ByValue) (n : QName) (d : StructDetails) (fs : List QName) :
    (structPod r n d fs = ⟨.safe, fs⟩ ∧ hasVtable d = false ∧
      ∀ f ∈ fs, ∃ d, r.get? f = some d ∧ ∀ m, d.state ≠ .unsafePod m) ∨
    (∃ m, structPod r n d fs = ⟨.unsafePod m, fs⟩ ∧ (hasVtable d = true ∨
      ∃ f ∈ fs, ∀ d, r.get? f = some d → ∃ m', d.state = .unsafePod m')) := by
  unfold structPod
  by_cases h : hasVtable d = true
  · right; rw [if_pos h]; exact ⟨_, rfl, .inl h⟩
  · rw [if_neg h]
    rcases fieldSafety_cases r n fs with ⟨h1, h2⟩ | ⟨m, h1, h2⟩
    · left; rw [h1]; exact ⟨rfl, by simpa using h, h2⟩
    · right; rw [h1]; exact ⟨m, rfl, .inr h2⟩

/-! ## The properties, in terms of the items and the configuration -/

/-- The types the user wants to be POD: those requested, and the types of the fields of the structs
among them. -/
inductive Wanted (apis : List TypedefApi) (cfg : Config) : QName → Prop
  | req {s : String} (h : s ∈ cfg.podRequests) : Wanted apis cfg (QName.ofCppName s)
  | field {n : ApiName} {d : StructDetails} {f : QName} (hw : Wanted apis cfg n.name)
      (h : Api.struct n d () ∈ apis) (hf : PathField d f) : Wanted apis cfg f

/-- A typedef of a built-in type which is not safe by value, or which the user blocklisted. -/
def UnsafeAlias (apis : List TypedefApi) (cfg : Config) (q : QName) : Prop :=
  ∃ kd, TypedefOfBuiltin apis q kd ∧
    (¬ SpecByValueSafe kd ∨ ∃ s ∈ cfg.blocklist, knownGet (QName.ofCppName s) = some kd)

/-- Nothing which is acceptable as a field's type is called `q`, structs aside. -/
def NoOtherItem (apis : List TypedefApi) (q : QName) : Prop :=
  knownGet q = none ∧ ¬ PodItem apis q ∧ ∀ n i o a, Api.typedef n i o a ∈ apis → n.name ≠ q

/-- The reasons for which a type cannot be POD. -/
inductive Unusable (apis : List TypedefApi) (cfg : Config) : QName → Prop
  | unknown {q : QName} (hs : ∀ n d, Api.struct n d () ∈ apis → n.name ≠ q)
      (h : NoOtherItem apis q) : Unusable apis cfg q
  | blocked {s : String} (h : s ∈ cfg.blocklist) : Unusable apis cfg (QName.ofCppName s)
  | complexTypedef {n : ApiName} {i : TypedefItem} {o : Option QName} {a : TypedefAnalysis}
      (h : Api.typedef n i o a ∈ apis) (hk : ∀ kd, ¬ TypedefOfBuiltin apis n.name kd) :
      Unusable apis cfg n.name
  | unsafeAlias {q : QName} (h : UnsafeAlias apis cfg q) : Unusable apis cfg q
  | builtin {q : QName} {kd : TypeDetails} (h : knownGet q = some kd) (hs : ¬ SpecByValueSafe kd) :
      Unusable apis cfg q
  | vtable {n : ApiName} {d : StructDetails} {vis : Bool} {t : Ty} (h : Api.struct n d () ∈ apis)
      (hf : ("vtable_", vis, t) ∈ d.fields) : Unusable apis cfg n.name
  | field {n : ApiName} {d : StructDetails} {f : QName} (h : Api.struct n d () ∈ apis)
      (hf : PathField d f) (hu : Unusable apis cfg f) : Unusable apis cfg n.name
  /-- The field's type is only declared after the struct, or not at all. -/
  | lateField {pre post : List TypedefApi} {n : ApiName} {d : StructDetails} {f : QName}
      (h : apis = pre ++ .struct n d () :: post) (hf : PathField d f)
      (hl : ∀ n d, Api.struct n d () ∈ pre → n.name ≠ f) (hn : NoOtherItem apis f) :
      Unusable apis cfg n.name

/-- Items recorded by the first loop, and nothing else, or the struct's own entry. -/
structure Ingested (apis : List TypedefApi) (cfg : Config) (r : ByValue) : Prop where
  ns : ∃ rk rn, byValueNew = some rk ∧ ingestNonStructs apis (ingestBlocklist rk cfg.blocklist) = some rn ∧
    ingestStructs apis rn = some r

theorem ingested_of (apis : List TypedefApi) (cfg : Config) (r : ByValue)
    (h : byValueIngest apis cfg = some r) : Ingested apis cfg r := by
  simp only [byValueIngest, Option.bind_eq_some_iff] at h
  obtain ⟨rk, h1, rn, h2, h3⟩ := h
  exact ⟨rk, rn, h1, h2, h3⟩

theorem typedefPodState_inv {n : QName} {ty : Ty} {s : PodState}
    (h : typedefPodState n ty = some s) :
    (∃ segs args t kd tp, ty = .path segs args ∧ QName.ofTypePath segs = some t ∧
      knownGet t = some kd ∧ knownGet tp = some kd ∧ RustBuiltinName tp ∧ s = .alias tp) ∨
    (s = nonPodTypedefState n ∧
      ∀ segs args t kd, ty = .path segs args → QName.ofTypePath segs = some t → knownGet t ≠ some kd) := by
  cases ty with
  | path segs args =>
    simp only [typedefPodState, Option.bind_eq_some_iff] at h
    obtain ⟨t, ht, h⟩ := h
    cases hk : knownGet t with
    | none =>
      simp only [considerSubstitution, hk, Option.map_none, Option.some.injEq] at h
      refine .inr ⟨h.symm, ?_⟩
      intro segs' args' t' kd e ht' hk'
      cases e; rw [ht] at ht'; cases ht'; rw [hk] at hk'; cases hk'
    | some kd =>
      simp only [considerSubstitution, hk, Option.map_some] at h
      obtain ⟨tp, htp, hktp⟩ := alias_target hk
      rw [htp] at h; cases h
      exact .inl ⟨segs, args, t, kd, tp, rfl, ht, hk, hktp, ⟨kd, hktp, htp⟩, rfl⟩
  | _ =>
    simp only [typedefPodState, Option.some.injEq] at h
    exact .inr ⟨h.symm, by intro _ _ _ _ e; cases e⟩

/-- What is recorded about a name after the first loop. -/
theorem recorded_nonstruct (apis : List TypedefApi) (cfg : Config) (rk rn : ByValue)
    (h1 : byValueNew = some rk)
    (h2 : ingestNonStructs apis (ingestBlocklist rk cfg.blocklist) = some rn)
    (hn : (apis.map (·.name)).Nodup) (q : QName) :
    (∃ n i o a s, Api.typedef n i o a ∈ apis ∧ n.name = q ∧ typedefPodState q a.target = some s ∧
      rn.get? q = some ⟨s, []⟩) ∨
    (PodItem apis q ∧ rn.get? q = some ⟨.isPod, []⟩) ∨
    ((∀ n i o a, Api.typedef n i o a ∈ apis → n.name ≠ q) ∧ ¬ PodItem apis q ∧
      ((q ∈ cfg.blocklist.map QName.ofCppName ∧ ∃ m, rn.get? q = some ⟨.unsafePod m, []⟩) ∨
       (∃ kd, knownGet q = some kd ∧
          rn.get? q = some ⟨knownPodState q (decide (SpecByValueSafe kd)), []⟩) ∨
       (knownGet q = none ∧ rn.get? q = none))) := by
  obtain ⟨g1, g2⟩ := nonStructs_get apis _ _ h2 hn q
  by_cases hex : ∃ a ∈ apis, a.name = q ∧ nonStructState a ≠ none
  · obtain ⟨a, ha, haq, hst⟩ := hex
    obtain ⟨s, hs⟩ := Option.ne_none_iff_exists'.1 hst
    have hg := g1 a ha haq s hs
    cases a with
    | typedef n i o an =>
      have : n.name = q := haq
      subst this
      exact .inl ⟨n, i, o, an, s, ha, rfl, hs, hg⟩
    | enum n i =>
      cases hs
      exact .inr (.inl ⟨⟨n, haq, .inl ⟨i, ha⟩⟩, hg⟩)
    | externCppType n p o =>
      cases p
      · cases hs
      · cases hs
        exact .inr (.inl ⟨⟨n, haq, .inr ⟨o, ha⟩⟩, hg⟩)
    | _ => cases hs
  · have hall : ∀ a ∈ apis, a.name = q → nonStructState a = none := by
      intro a ha haq
      exact Classical.byContradiction fun hh => hex ⟨a, ha, haq, hh⟩
    have hg := g2 hall
    rw [blocklist_get] at hg
    obtain ⟨rk', hrk', hspec⟩ := by_value_new
    rw [h1] at hrk'; cases hrk'
    have hpod : ¬ PodItem apis q := by
      rintro ⟨n, hq, ⟨i, hm⟩ | ⟨o, hm⟩⟩
      · have := hall _ hm hq; cases this
      · have := hall _ hm hq; cases this
    by_cases htd : ∃ n i o a, Api.typedef n i o a ∈ apis ∧ n.name = q
    · -- a typedef whose target makes `from_type_path` panic would have stopped the loop
      obtain ⟨n, i, o, a, hm, hq⟩ := htd
      have hnone := hall _ hm hq
      exfalso
      simp only [nonStructState] at hnone
      clear hg g1 g2 hall hex
      generalize ingestBlocklist rk cfg.blocklist = rb at h2
      clear hn hspec hpod
      induction apis generalizing rb with
      | nil => cases hm
      | cons b l ih =>
        rcases List.mem_cons.1 hm with rfl | hm'
        · simp [ingestNonStructs, hnone] at h2
        · cases b with
          | typedef n' i' o' a' =>
            simp only [ingestNonStructs, Option.bind_eq_some_iff] at h2
            obtain ⟨_, _, h2⟩ := h2
            exact ih hm' _ h2
          | externCppType n' p o => cases p <;> simp only [ingestNonStructs] at h2 <;> exact ih hm' _ h2
          | _ => simp only [ingestNonStructs] at h2; exact ih hm' _ h2
    · refine .inr (.inr ⟨fun n i o a hm hq => htd ⟨n, i, o, a, hm, hq⟩, hpod, ?_⟩)
      by_cases hb : q ∈ cfg.blocklist.map QName.ofCppName
      · rw [if_pos hb] at hg; exact .inl ⟨hb, _, hg⟩
      · rw [if_neg hb] at hg
        right
        cases hk : knownGet q with
        | none =>
          right
          refine ⟨rfl, ?_⟩
          rw [hg]
          cases hr : rk.get? q with
          | none => rfl
          | some d => obtain ⟨kd, hkd, _⟩ := (hspec q d).1 hr; rw [hk] at hkd; cases hkd
        | some kd =>
          left
          exact ⟨kd, rfl, by rw [hg]; exact (hspec q _).2 ⟨kd, hk, rfl⟩⟩

/-- What is recorded about a name. -/
theorem recorded (apis : List TypedefApi) (cfg : Config) (r : ByValue)
    (h : byValueIngest apis cfg = some r) (hn : (apis.map (·.name)).Nodup) (q : QName) :
    (∃ pre post n det fs r1 rn rk, apis = pre ++ .struct n det () :: post ∧ n.name = q ∧
      byValueNew = some rk ∧ ingestNonStructs apis (ingestBlocklist rk cfg.blocklist) = some rn ∧
      ingestStructs pre rn = some r1 ∧ fieldPathTypes det.fields = some fs ∧
      r.get? q = some (structPod r1 q det fs)) ∨
    ((∀ n d, Api.struct n d () ∈ apis → n.name ≠ q) ∧
      ∃ rk rn, byValueNew = some rk ∧
        ingestNonStructs apis (ingestBlocklist rk cfg.blocklist) = some rn ∧ r.get? q = rn.get? q) := by
  obtain ⟨rk, rn, h1, h2, h3⟩ := ingested_of apis cfg r h
  by_cases hs : ∃ n d, Api.struct n d () ∈ apis ∧ n.name = q
  · obtain ⟨n, d, hm, hq⟩ := hs
    obtain ⟨pre, post, e⟩ := List.append_of_mem hm
    rw [e] at h3 hn
    obtain ⟨r1, fs, hr1, hfs, hg⟩ := structs_get pre post n d rn r h3 hn
    subst hq
    exact .inl ⟨pre, post, n, d, fs, r1, rn, rk, e, rfl, h1, h2, hr1, hfs, hg⟩
  · refine .inr ⟨fun n d hm hq => hs ⟨n, d, hm, hq⟩, rk, rn, h1, h2, ?_⟩
    exact structs_get_other _ _ _ h3 q fun n d a hm hq => hs ⟨n, d, hm, hq⟩

theorem aliases_settled (apis : List TypedefApi) (cfg : Config) (r : ByValue)
    (h : byValueIngest apis cfg = some r) (hn : (apis.map (·.name)).Nodup)
    (hb : NoBuiltinNames apis) : AliasesSettled r ∧
      ∀ q t ds, r.get? q = some ⟨.alias t, ds⟩ → ∃ kd, TypedefOfBuiltin apis q kd ∧ knownGet t = some kd ∧
        ((t ∈ cfg.blocklist.map QName.ofCppName ∧ ∃ m, r.get? t = some ⟨.unsafePod m, []⟩) ∨
          (SpecByValueSafe kd ∧ r.get? t = some ⟨.isPod, []⟩) ∨
          (¬ SpecByValueSafe kd ∧ ∃ m, r.get? t = some ⟨.unsafePod m, []⟩)) := by
  have key : ∀ q t ds, r.get? q = some ⟨.alias t, ds⟩ → ∃ kd, TypedefOfBuiltin apis q kd ∧
      knownGet t = some kd ∧
        ((t ∈ cfg.blocklist.map QName.ofCppName ∧ ∃ m, r.get? t = some ⟨.unsafePod m, []⟩) ∨
          (SpecByValueSafe kd ∧ r.get? t = some ⟨.isPod, []⟩) ∨
          (¬ SpecByValueSafe kd ∧ ∃ m, r.get? t = some ⟨.unsafePod m, []⟩)) := by
    intro q t ds hq
    rcases recorded apis cfg r h hn q with
      ⟨_, _, _, det, fs, r1, _, _, _, _, _, _, _, _, hg⟩ | ⟨_, rk, rn, h1, h2, hg⟩
    · rw [hq] at hg
      rcases structPod_cases r1 q det fs with ⟨e, _⟩ | ⟨m, e, _⟩ <;> rw [e] at hg <;> cases hg
    · rw [hq] at hg
      rcases recorded_nonstruct apis cfg rk rn h1 h2 hn q with
        ⟨n, i, o, a, s, hm, hnq, hs, hg'⟩ | ⟨_, hg'⟩ | ⟨_, _, ⟨_, m, hg'⟩ | ⟨kd, _, hg'⟩ | ⟨_, hg'⟩⟩
      · rw [hg'] at hg; cases hg
        rcases typedefPodState_inv hs with ⟨segs, args, t0, kd, tp, e1, e2, e3, e4, hrb, e5⟩ | ⟨e, _⟩
        · cases e5
          refine ⟨kd, ⟨n, i, o, a, segs, args, t0, hm, hnq, e1, e2, e3⟩, e4, ?_⟩
          have hstruct : ∀ n d, Api.struct n d () ∈ apis → n.name ≠ t := by
            intro n d hm' e
            exact hb _ hm' (by rw [show (Api.struct n d () : TypedefApi).name = n.name from rfl, e]; exact hrb)
          rcases recorded apis cfg r h hn t with
            ⟨pre, post, n', d', _, _, _, _, e, e', _⟩ | ⟨_, rk', rn', h1', h2', hgt⟩
          · exact absurd e' (hstruct n' d' (by rw [e]; simp))
          · rw [h1] at h1'; cases h1'
            rw [h2] at h2'; cases h2'
            rcases recorded_nonstruct apis cfg rk rn h1 h2 hn t with
              ⟨n', i', o', a', s', hm', hnq', _⟩ | ⟨⟨n', hnq', hpi⟩, hg'⟩ | ⟨_, _, ⟨hbl, m, hg'⟩ | ⟨kd', hk', hg'⟩ | ⟨hk', _⟩⟩
            · exact absurd hrb (by rw [← hnq']; exact hb _ hm')
            · exfalso
              rcases hpi with ⟨i', hm'⟩ | ⟨o, hm'⟩
              · exact hb _ hm' (by rw [show (Api.enum n' i' : TypedefApi).name = n'.name from rfl, hnq']; exact hrb)
              · exact hb _ hm' (by rw [show (Api.externCppType n' true o : TypedefApi).name = n'.name from rfl, hnq']; exact hrb)
            · exact .inl ⟨hbl, m, by rw [hgt, hg']⟩
            · rw [e4] at hk'; cases hk'
              by_cases hsafe : SpecByValueSafe kd
              · exact .inr (.inl ⟨hsafe, by rw [hgt, hg']; simp [knownPodState, hsafe]⟩)
              · exact .inr (.inr ⟨hsafe, _, by rw [hgt, hg']; simp [knownPodState, hsafe]; rfl⟩)
            · rw [e4] at hk'; cases hk'
        · cases e
      · rw [hg'] at hg; cases hg
      · rw [hg'] at hg; cases hg
      · rw [hg'] at hg
        simp only [knownPodState] at hg
        split at hg <;> cases hg
      · rw [hg'] at hg; cases hg
  refine ⟨?_, key⟩
  intro q t ds hq
  obtain ⟨kd, _, _, ⟨_, m, e⟩ | ⟨_, e⟩ | ⟨_, m, e⟩⟩ := key q t ds hq
  · exact ⟨_, e, .inr ⟨m, rfl⟩⟩
  · exact ⟨_, e, .inl rfl⟩
  · exact ⟨_, e, .inr ⟨m, rfl⟩⟩

theorem struct_entry (apis : List TypedefApi) (cfg : Config) (r : ByValue)
    (h : byValueIngest apis cfg = some r) (hn : (apis.map (·.name)).Nodup) {n : ApiName}
    {d : StructDetails} (hm : Api.struct n d () ∈ apis) :
    ∃ fs, fieldPathTypes d.fields = some fs ∧
      ((r.get? n.name = some ⟨.safe, fs⟩ ∧ hasVtable d = false) ∨
        ∃ m, r.get? n.name = some ⟨.unsafePod m, fs⟩) := by
  obtain ⟨rk, rn, h1, h2, h3⟩ := ingested_of apis cfg r h
  obtain ⟨pre, post, e⟩ := List.append_of_mem hm
  rw [e] at h3 hn
  obtain ⟨r1, fs, hr1, hfs, hg⟩ := structs_get pre post n d rn r h3 hn
  refine ⟨fs, hfs, ?_⟩
  rcases structPod_cases r1 n.name d fs with ⟨e, h4, _⟩ | ⟨m, e, _⟩
  · exact .inl ⟨by rw [hg, e], h4⟩
  · exact .inr ⟨m, by rw [hg, e]⟩

theorem needs_wanted (apis : List TypedefApi) (cfg : Config) (r : ByValue)
    (h : byValueIngest apis cfg = some r) (hn : (apis.map (·.name)).Nodup) {q : QName}
    (hq : Needs r (cfg.podRequests.map QName.ofCppName) q) : Wanted apis cfg q := by
  induction hq with
  | req h => obtain ⟨s, hs, rfl⟩ := List.mem_map.1 h; exact .req hs
  | @field q f ds _ hs hf ih =>
    rcases recorded apis cfg r h hn q with
      ⟨pre, post, n, det, fs, r1, _, _, e, rfl, _, _, _, hfs, hg⟩ | ⟨_, rk, rn, h1, h2, hg⟩
    · rw [hs] at hg
      rcases structPod_cases r1 n.name det fs with ⟨e', _⟩ | ⟨m, e', _⟩ <;> rw [e'] at hg <;> cases hg
      exact .field ih (d := det) (by rw [e]; simp) ((mem_fieldPathTypes hfs f).1 hf)
    · rw [hs] at hg
      rcases recorded_nonstruct apis cfg rk rn h1 h2 hn q with
        ⟨n, i, o, a, s, hm, hnq, hs', hg'⟩ | ⟨_, hg'⟩ | ⟨_, _, ⟨_, m, hg'⟩ | ⟨kd, _, hg'⟩ | ⟨_, hg'⟩⟩
      · rw [hg'] at hg; cases hg; cases hf
      · rw [hg'] at hg; cases hg
      · rw [hg'] at hg; cases hg
      · rw [hg'] at hg; simp only [Option.some.injEq, PodDetails.mk.injEq] at hg; rw [hg.2] at hf; cases hf
      · rw [hg'] at hg; cases hg

theorem needs_dealt {r0 r : ByValue} {reqs : List QName} (hi : SatInv r0 reqs r []) {q : QName}
    (hq : Needs r0 reqs q) : Dealt r0 r q := by
  induction hq with
  | req h => exact (hi.reqs _ h).resolve_left (by simp)
  | @field q f ds _ hs hf ih =>
    refine (hi.deps q ds hs ?_ f hf).resolve_left (by simp)
    obtain ⟨d, hd, he | ⟨t, ds', dt, m, hal, _⟩⟩ := ih
    · rw [isPod_iff]; exact ⟨d.deps, by rw [hd, ← he]⟩
    · rw [hs] at hal; cases hal

theorem unsafe_alias_of (apis : List TypedefApi) (cfg : Config) (r : ByValue)
    (h : byValueIngest apis cfg = some r) (hn : (apis.map (·.name)).Nodup)
    (hb : NoBuiltinNames apis) {q t : QName} {ds : List QName} {dt : PodDetails} {m : String}
    (hq : r.get? q = some ⟨.alias t, ds⟩) (ht : r.get? t = some dt) (hm : dt.state = .unsafePod m) :
    UnsafeAlias apis cfg q := by
  obtain ⟨kd, htd, hk, ⟨hbl, _⟩ | ⟨_, e⟩ | ⟨hs, _⟩⟩ := (aliases_settled apis cfg r h hn hb).2 q t ds hq
  · obtain ⟨s, hs, rfl⟩ := List.mem_map.1 hbl
    exact ⟨kd, htd, .inr ⟨s, hs, hk⟩⟩
  · rw [ht] at e; cases e; cases hm
  · exact ⟨kd, htd, .inl hs⟩

/-- A wanted type is needed, and was dealt with, once everything succeeded. -/
theorem wanted_dealt (apis : List TypedefApi) (cfg : Config) (r0 r : ByValue)
    (h0 : byValueIngest apis cfg = some r0) (hn : (apis.map (·.name)).Nodup)
    (hi : SatInv r0 (cfg.podRequests.map QName.ofCppName) r [])
    {q : QName} (hq : Wanted apis cfg q) :
    Needs r0 (cfg.podRequests.map QName.ofCppName) q ∧ Dealt r0 r q := by
  induction hq with
  | req h =>
    have : Needs r0 (cfg.podRequests.map QName.ofCppName) _ := .req (List.mem_map.2 ⟨_, h, rfl⟩)
    exact ⟨this, needs_dealt hi this⟩
  | @field n d f _ hm hf ih =>
    obtain ⟨hneed, hdealt⟩ := ih
    obtain ⟨fs, hfs, ⟨he, _⟩ | ⟨m, he⟩⟩ := struct_entry apis cfg r0 h0 hn hm
    · have : Needs r0 (cfg.podRequests.map QName.ofCppName) f :=
        .field hneed he ((mem_fieldPathTypes hfs f).2 hf)
      exact ⟨this, needs_dealt hi this⟩
    · exfalso
      have hr : r.get? n.name = some ⟨.unsafePod m, fs⟩ := by
        rcases (hi.evolved n.name).inv with e | ⟨_, e, _⟩ | ⟨_, _, _, e, _⟩
        · rw [← e, he]
        · rw [he] at e; cases e
        · rw [he] at e; cases e
      obtain ⟨d', hd', e | ⟨t, ds', dt, m', hal, _⟩⟩ := hdealt
      · rw [hr] at hd'; cases hd'; cases e
      · rw [he] at hal; cases hal

/-- **C11 (termination)**: resolving the requests ends. -/
theorem pod_terminates (apis : List TypedefApi) (cfg : Config)
    (hn : (apis.map (·.name)).Nodup) (hb : NoBuiltinNames apis) :
    byValueFromApis apis cfg ≠ .loops := by
  unfold byValueFromApis
  split
  · intro e; cases e
  · rename_i r h
    have := satisfy_requests_post r (cfg.podRequests.map QName.ofCppName)
      (aliases_settled apis cfg r h hn hb).1
    intro e
    rw [e] at this; exact this

theorem outcome_ok (apis : List TypedefApi) (cfg : Config) (r : ByValue)
    (hn : (apis.map (·.name)).Nodup) (hb : NoBuiltinNames apis)
    (h : byValueFromApis apis cfg = .ok r) : ∃ r0, byValueIngest apis cfg = some r0 ∧
      SatInv r0 (cfg.podRequests.map QName.ofCppName) r [] := by
  unfold byValueFromApis at h
  split at h
  · cases h
  · rename_i r0 h0
    have := satisfy_requests_post r0 (cfg.podRequests.map QName.ofCppName)
      (aliases_settled apis cfg r0 h0 hn hb).1
    rw [h] at this
    exact ⟨r0, h0, this⟩

/-- **C11 (requests honoured)**: if resolving the requests succeeds, every requested type, and every
type which a requested struct contains, is POD, except for typedefs of unsafe built-in types. The full
claim, without the exception, is false: `pod_request_ignored_false`. -/
theorem pod_requests_honoured_partial (apis : List TypedefApi) (cfg : Config) (r : ByValue)
    (hn : (apis.map (·.name)).Nodup) (hb : NoBuiltinNames apis)
    (h : byValueFromApis apis cfg = .ok r) (q : QName) (hq : Wanted apis cfg q) :
    r.isPod q = true ∨ UnsafeAlias apis cfg q := by
  obtain ⟨r0, h0, hi⟩ := outcome_ok apis cfg r hn hb h
  obtain ⟨_, d, hd, he | ⟨t, ds, dt, m, hal, ht, hm, _⟩⟩ := wanted_dealt apis cfg r0 r h0 hn hi hq
  · left; rw [isPod_iff]; exact ⟨d.deps, by rw [hd, ← he]⟩
  · exact .inr (unsafe_alias_of apis cfg r0 h0 hn hb hal ht hm)

/-- **C10 (soundness)**: a type which is treated as POD is a built-in type that is safe by value, an
enum or a type declared POD by the user, or it was wanted and is either a typedef of a safe built-in
type or a struct without virtual functions all of whose fields with a named type are POD. The
exception for typedefs of unsafe built-in types is real: `pod_typedef_field_false`; and only fields
with a named type are looked at: `pod_array_field_false`. -/
theorem pod_sound_partial (apis : List TypedefApi) (cfg : Config) (r : ByValue)
    (hn : (apis.map (·.name)).Nodup) (hb : NoBuiltinNames apis)
    (h : byValueFromApis apis cfg = .ok r) (q : QName) (hq : r.isPod q = true) :
    (∃ kd, knownGet q = some kd ∧ SpecByValueSafe kd) ∨ PodItem apis q ∨
    (Wanted apis cfg q ∧
      ((∃ kd, TypedefOfBuiltin apis q kd ∧ SpecByValueSafe kd) ∨
       ∃ n d, n.name = q ∧ Api.struct n d () ∈ apis ∧ (∀ vis t, ("vtable_", vis, t) ∉ d.fields) ∧
        ∀ f, PathField d f → r.isPod f = true ∨ UnsafeAlias apis cfg f)) := by
  obtain ⟨r0, h0, hi⟩ := outcome_ok apis cfg r hn hb h
  obtain ⟨ds, hr⟩ := (isPod_iff r q).1 hq
  have hev := (hi.evolved q).inv
  rw [hr] at hev
  rcases hev with e | ⟨ds', e, _, hneed⟩ | ⟨ds', t, dt, e, e', hneed, ht, hst⟩
  · rcases recorded apis cfg r0 h0 hn q with
      ⟨_, _, _, det, fs, r1, _, _, _, _, _, _, _, _, hg⟩ | ⟨_, rk, rn, h1, h2, hg⟩
    · rw [e] at hg
      rcases structPod_cases r1 q det fs with ⟨e', _⟩ | ⟨m, e', _⟩ <;> rw [e'] at hg <;> cases hg
    · rw [e] at hg
      rcases recorded_nonstruct apis cfg rk rn h1 h2 hn q with
        ⟨n, i, o, a, s, hm, hnq, hs', hg'⟩ | ⟨hp, hg'⟩ | ⟨_, _, ⟨_, m, hg'⟩ | ⟨kd, hk, hg'⟩ | ⟨_, hg'⟩⟩
      · rw [hg'] at hg; cases hg
        rcases typedefPodState_inv hs' with ⟨_, _, _, _, _, _, _, _, _, _, e⟩ | ⟨e, _⟩ <;> cases e
      · exact .inr (.inl hp)
      · rw [hg'] at hg; cases hg
      · rw [hg'] at hg
        left
        refine ⟨kd, hk, ?_⟩
        simp only [knownPodState, Option.some.injEq, PodDetails.mk.injEq] at hg
        by_cases hsafe : SpecByValueSafe kd
        · exact hsafe
        · simp [hsafe] at hg
      · rw [hg'] at hg; cases hg
  · right; right
    have hw := needs_wanted apis cfg r0 h0 hn hneed
    refine ⟨hw, .inr ?_⟩
    rcases recorded apis cfg r0 h0 hn q with
      ⟨pre, post, n, det, fs, r1, _, _, e1, e2, _, _, _, hfs, hg⟩ | ⟨_, rk, rn, h1, h2, hg⟩
    · have hm : Api.struct n det () ∈ apis := by rw [e1]; simp
      subst e2
      rw [e] at hg
      rcases structPod_cases r1 n.name det fs with ⟨e', hv, _⟩ | ⟨m, e', _⟩
      · refine ⟨n, det, rfl, hm, ?_, ?_⟩
        · intro vis t hmem
          have : hasVtable det = true := List.any_eq_true.2 ⟨_, hmem, by simp⟩
          rw [hv] at this; cases this
        · intro f hf
          exact pod_requests_honoured_partial apis cfg r hn hb h f (.field hw hm hf)
      · rw [e'] at hg; cases hg
    · rw [e] at hg
      rcases recorded_nonstruct apis cfg rk rn h1 h2 hn q with
        ⟨n, i, o, a, s, hm, hnq, hs', hg'⟩ | ⟨hp, hg'⟩ | ⟨_, _, ⟨_, m, hg'⟩ | ⟨kd, hk, hg'⟩ | ⟨_, hg'⟩⟩
      · rw [hg'] at hg; cases hg
        rcases typedefPodState_inv hs' with ⟨_, _, _, _, _, _, _, _, _, _, e⟩ | ⟨e, _⟩ <;> cases e
      · rw [hg'] at hg; cases hg
      · rw [hg'] at hg; cases hg
      · rw [hg'] at hg
        simp only [knownPodState, Option.some.injEq, PodDetails.mk.injEq] at hg
        obtain ⟨hg, _⟩ := hg
        split at hg <;> cases hg
      · rw [hg'] at hg; cases hg
  · right; right
    refine ⟨needs_wanted apis cfg r0 h0 hn hneed, .inl ?_⟩
    simp only [Option.some.injEq, PodDetails.mk.injEq] at e'
    obtain ⟨kd, htd, hk, ⟨_, m, e1⟩ | ⟨hsafe, _⟩ | ⟨_, m, e1⟩⟩ :=
      (aliases_settled apis cfg r0 h0 hn hb).2 q t ds' e
    · rw [ht] at e1; cases e1; cases e'.1
    · exact ⟨kd, htd, hsafe⟩
    · rw [ht] at e1; cases e1; cases e'.1

end Verif
