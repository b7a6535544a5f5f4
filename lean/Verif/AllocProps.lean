import Verif.SmallPassProps

/-!
# Properties of allocators and constructor dependencies (C45)
-/

set_option autoImplicit false

namespace Verif

/-! ## Allocators -/

/-- A function which allocates memory for a `ty` without building one. -/
def IsAlloc (ty : QName) (x : PodApi) : Prop :=
  ∃ (n : ApiName) (f : FuncToConvert), x = .function n f () ∧ n.name.ns = ty.ns ∧ f.inputs = [] ∧
    f.output = some (.ptr true (.path ty.toTypePath [])) ∧ f.addToTrait = some (.allocUninitialized ty) ∧
    f.syntheticCpp = some (.allocUninitialized ty, .function) ∧ f.selfTy = none ∧ f.cppVis = .pub ∧
    f.isDeleted = none ∧ f.specialMember = none ∧ f.provenance = .synthesizedOther ∧ f.ident = n.name.name

/-- A function which frees such memory. -/
def IsFree (ty : QName) (x : PodApi) : Prop :=
  ∃ (n : ApiName) (f : FuncToConvert), x = .function n f () ∧ n.name.ns = ty.ns ∧
    f.inputs = [.typed "arg0" (.ptr true (.path ty.toTypePath []))] ∧
    f.output = none ∧ f.addToTrait = some (.freeUninitialized ty) ∧
    f.syntheticCpp = some (.freeUninitialized ty, .function) ∧ f.selfTy = none ∧ f.cppVis = .pub ∧
    f.isDeleted = none ∧ f.specialMember = none ∧ f.provenance = .synthesizedOther ∧ f.ident = n.name.name

/-- The types memory is allocated for: structs, and the C++ side of subclasses. -/
inductive Allocated (apis : List PodApi) : QName → Prop
  | struct {n : ApiName} {d : StructDetails} {a : PodAnalysis} (h : .struct n d a ∈ apis) : Allocated apis n.name
  | subclass {n : ApiName} {sup : QName} (h : .subclass n sup ∈ apis) :
      Allocated apis ⟨n.name.ns, n.name.name ++ "Cpp"⟩

/-- No item has the name of an allocator or deallocator, and no struct the name of the C++ side of a subclass. -/
structure AllocNamesApart (apis : List PodApi) : Prop where
  fresh : ∀ x ∈ apis, ∀ q, Allocated apis q → x.name ≠ ⟨q.ns, q.name ++ "_autocxx_alloc"⟩ ∧
    x.name ≠ ⟨q.ns, q.name ++ "_autocxx_free"⟩
  peers : ∀ n sup, Api.subclass n sup ∈ apis → ∀ m d a, Api.struct m d a ∈ apis →
    m.name ≠ ⟨n.name.ns, n.name.name ++ "Cpp"⟩

/-- The type memory is allocated for on account of an item. -/
def allocatedFor : PodApi → Option QName
  | .struct n _ _ => some n.name
  | .subclass n _ => some n.cppPeer
  | _ => none

/-- What is added for an item. -/
def allocsFor (a : PodApi) : List PodApi := (allocatedFor a).toList.flatMap createAllocAndFree

theorem createAllocAndFrees_eq (apis : ApiVec TypedefAnalysis PodAnalysis Unit) :
    createAllocAndFrees apis = ApiVec.fromIter (apis.apis.flatMap fun a => allocsFor a ++ [a]) := by
  unfold createAllocAndFrees
  congr 1
  induction apis.apis with
  | nil => rfl
  | cons a l ih =>
    rw [List.flatMap_cons, List.flatMap_cons, ih]
    cases a <;> rfl

theorem allocatedFor_allocated {apis : List PodApi} {a : PodApi} (ha : a ∈ apis) {q : QName}
    (h : allocatedFor a = some q) : Allocated apis q := by
  cases a with
  | struct n d an => cases h; exact .struct ha
  | subclass n sup => cases h; exact .subclass ha
  | _ => cases h

theorem allocated_iff (apis : List PodApi) (q : QName) : Allocated apis q ↔ ∃ a ∈ apis, allocatedFor a = some q := by
  constructor
  · intro h
    cases h with
    | struct h => exact ⟨_, h, rfl⟩
    | subclass h => exact ⟨_, h, rfl⟩
  · rintro ⟨a, ha, h⟩
    exact allocatedFor_allocated ha h

theorem mem_allocsFor {a x : PodApi} : x ∈ allocsFor a ↔ ∃ q, allocatedFor a = some q ∧ x ∈ createAllocAndFree q := by
  unfold allocsFor
  rw [List.mem_flatMap]
  constructor
  · rintro ⟨q, hq, hx⟩; exact ⟨q, by simpa using hq, hx⟩
  · rintro ⟨q, hq, hx⟩; exact ⟨q, by simpa using hq, hx⟩

theorem alloc_free_differ (a b : String) : a ++ "_autocxx_alloc" ≠ b ++ "_autocxx_free" := by
  intro h
  have := congrArg (fun s : String => s.toList.getLast?) h
  simp only [String.toList_append, List.getLast?_append] at this
  have e1 : "_autocxx_alloc".toList.getLast? = some 'c' := by decide
  have e2 : "_autocxx_free".toList.getLast? = some 'e' := by decide
  rw [e1, e2] at this
  exact absurd this (by simp)

theorem createAlloc_names {q : QName} {x : PodApi} (h : x ∈ createAllocAndFree q) :
    x.name = ⟨q.ns, q.name ++ "_autocxx_alloc"⟩ ∧ IsAlloc q x ∨
    x.name = ⟨q.ns, q.name ++ "_autocxx_free"⟩ ∧ IsFree q x := by
  rcases List.mem_cons.1 h with rfl | h
  · exact .inl ⟨rfl, _, _, rfl, rfl, rfl, rfl, rfl, rfl, rfl, rfl, rfl, rfl, rfl, rfl⟩
  · rw [List.mem_singleton] at h
    subst h
    exact .inr ⟨rfl, _, _, rfl, rfl, rfl, rfl, rfl, rfl, rfl, rfl, rfl, rfl, rfl, rfl⟩

theorem mem_createAllocAndFrees (apis : ApiVec TypedefAnalysis PodAnalysis Unit) (hi : apis.Inv)
    (ha : AllocNamesApart apis.apis) (x : PodApi) : x ∈ (createAllocAndFrees apis).apis ↔ x ∈ apis.apis ∨
      ∃ q, Allocated apis.apis q ∧ x ∈ createAllocAndFree q := by
  rw [createAllocAndFrees_eq, fromIter_apis, List.mem_flatMap]
  · constructor
    · rintro ⟨a, hm, hx⟩
      rw [List.mem_append, List.mem_singleton] at hx
      rcases hx with hx | rfl
      · obtain ⟨q, hq, hx⟩ := mem_allocsFor.1 hx
        exact .inr ⟨q, allocatedFor_allocated hm hq, hx⟩
      · exact .inl hm
    · rintro (hx | ⟨q, hq, hx⟩)
      · exact ⟨x, hx, by simp⟩
      · obtain ⟨a, hm, h⟩ := (allocated_iff _ _).1 hq
        exact ⟨a, hm, List.mem_append.2 (.inl (mem_allocsFor.2 ⟨q, h, hx⟩))⟩
  · have differ : ∀ {q q' x y}, x ∈ createAllocAndFree q → y ∈ createAllocAndFree q' → x.name = y.name → q = q' := by
      intro q q' x y hx hy e
      rcases createAlloc_names hx with ⟨h, -⟩ | ⟨h, -⟩ <;> rcases createAlloc_names hy with ⟨h', -⟩ | ⟨h', -⟩ <;>
        rw [h, h'] at e <;> obtain ⟨e1, e2⟩ := QName.mk.inj e
      · cases q; cases q'; cases e1; cases str_append_right_cancel _ _ _ e2; rfl
      · exact absurd e2 (alloc_free_differ _ _)
      · exact absurd e2.symm (alloc_free_differ _ _)
      · cases q; cases q'; cases e1; cases str_append_right_cancel _ _ _ e2; rfl
    refine added_nodup _ _ hi.1 ?_ ?_ ?_
    · intro a hm x hx b hb e
      obtain ⟨q, hq, hx⟩ := mem_allocsFor.1 hx
      have := ha.fresh b hb q (allocatedFor_allocated hm hq)
      rcases createAlloc_names hx with ⟨h, -⟩ | ⟨h, -⟩
      · exact this.1 (e.symm.trans h)
      · exact this.2 (e.symm.trans h)
    · intro a hm
      unfold allocsFor
      cases allocatedFor a with
      | none => exact List.nodup_nil
      | some q =>
        have : ((some q).toList.flatMap createAllocAndFree).map (·.name) =
            [⟨q.ns, q.name ++ "_autocxx_alloc"⟩, ⟨q.ns, q.name ++ "_autocxx_free"⟩] := rfl
        rw [this, List.nodup_cons]
        refine ⟨?_, List.nodup_singleton _⟩
        rw [List.mem_singleton]
        intro e
        exact alloc_free_differ _ _ (QName.mk.inj e).2
    · intro a hm b hb hab x hx y hy e
      obtain ⟨q, hq, hx⟩ := mem_allocsFor.1 hx
      obtain ⟨q', hq', hy⟩ := mem_allocsFor.1 hy
      have := differ hx hy e
      subst this
      cases a with
      | struct n d an =>
        cases b with
        | struct n' d' an' =>
          cases hq
          exact hab (Option.some.inj hq').symm
        | subclass n' sup =>
          cases hq
          exact ha.peers n' sup hb n d an hm (Option.some.inj hq').symm
        | _ => cases hq'
      | subclass n sup =>
        cases b with
        | struct n' d' an' =>
          cases hq'
          exact ha.peers n sup hm n' d' an' hb (Option.some.inj hq).symm
        | subclass n' sup' =>
          refine hab ?_
          have e : n.cppPeer = n'.cppPeer := Option.some.inj (hq.trans hq'.symm)
          obtain ⟨e1, e2⟩ := QName.mk.inj e
          have e3 := str_append_right_cancel _ _ _ e2
          show n.name = n'.name
          cases hn : n.name
          cases hn' : n'.name
          rw [hn, hn'] at e1 e3
          cases e1
          cases e3
          rfl
        | _ => cases hq'
      | _ => cases hq

/-- **C45 (partial)**: if no item has such a name already, each struct and the C++ side of each subclass is given exactly one
allocator and one deallocator, and nothing else is added. -/
theorem allocators_added_partial (apis : ApiVec TypedefAnalysis PodAnalysis Unit) (hi : apis.Inv)
    (ha : AllocNamesApart apis.apis) :
    (createAllocAndFrees apis).Inv ∧ (∀ x ∈ apis.apis, x ∈ (createAllocAndFrees apis).apis) ∧
    (∀ x ∈ (createAllocAndFrees apis).apis, x ∈ apis.apis ∨
      ∃ q, Allocated apis.apis q ∧ (IsAlloc q x ∨ IsFree q x)) ∧
    ∀ q, Allocated apis.apis q → ∃ x ∈ (createAllocAndFrees apis).apis, ∃ y ∈ (createAllocAndFrees apis).apis,
      IsAlloc q x ∧ IsFree q y ∧ ∀ z ∈ (createAllocAndFrees apis).apis, z ∉ apis.apis →
        (IsAlloc q z → z = x) ∧ (IsFree q z → z = y) := by
  refine ⟨by rw [createAllocAndFrees_eq]; exact fromIter_inv _,
    fun x hx => (mem_createAllocAndFrees apis hi ha x).2 (.inl hx), ?_, ?_⟩
  · intro x hx
    rcases (mem_createAllocAndFrees apis hi ha x).1 hx with h | ⟨q, hq, h⟩
    · exact .inl h
    · refine .inr ⟨q, hq, ?_⟩
      rcases createAlloc_names h with ⟨-, h⟩ | ⟨-, h⟩
      · exact .inl h
      · exact .inr h
  · intro q hq
    have h1 : ∀ x ∈ createAllocAndFree q, x ∈ (createAllocAndFrees apis).apis := fun x hx =>
      (mem_createAllocAndFrees apis hi ha x).2 (.inr ⟨q, hq, hx⟩)
    refine ⟨_, h1 _ (.head _), _, h1 _ (.tail _ (.head _)), ?_, ?_, ?_⟩
    · exact ⟨_, _, rfl, rfl, rfl, rfl, rfl, rfl, rfl, rfl, rfl, rfl, rfl, rfl⟩
    · exact ⟨_, _, rfl, rfl, rfl, rfl, rfl, rfl, rfl, rfl, rfl, rfl, rfl, rfl⟩
    · intro z hz hnz
      rcases (mem_createAllocAndFrees apis hi ha z).1 hz with h | ⟨q', hq', h⟩
      · exact absurd h hnz
      · constructor
        · rintro ⟨m, f, rfl, -, -, -, h1, -⟩
          rcases List.mem_cons.1 h with e | h
          · cases e
            have : q' = q := TraitSynthesis.allocUninitialized.inj (Option.some.inj h1)
            rw [this]
          · rw [List.mem_singleton] at h
            cases h
            cases h1
        · rintro ⟨m, f, rfl, -, -, -, h1, -⟩
          rcases List.mem_cons.1 h with e | h
          · cases e
            cases h1
          · rw [List.mem_singleton] at h
            cases h
            have : q' = q := TraitSynthesis.freeUninitialized.inj (Option.some.inj h1)
            rw [this]

/-- A struct, and a function of the user's which is called like its allocator. -/
def exAllocClash : ApiVec TypedefAnalysis PodAnalysis Unit := ApiVec.fromIter
  [.struct ⟨⟨[], "S"⟩, none⟩ {} {}, .function ⟨⟨[], "S_autocxx_alloc"⟩, none⟩ { ident := "S_autocxx_alloc" } ()]

/-- **C45 is false** without the condition: a function with the name of the allocator of a struct is lost, and so is the
allocator. -/
theorem allocators_clash_false : ∃ (apis : ApiVec TypedefAnalysis PodAnalysis Unit), apis.Inv ∧
    ∃ q, Allocated apis.apis q ∧ ∀ x ∈ (createAllocAndFrees apis).apis, ¬ IsAlloc q x := by
  refine ⟨exAllocClash, fromIter_inv _, ⟨[], "S"⟩,
    .struct (n := ⟨⟨[], "S"⟩, none⟩) (d := {}) (a := {}) (by decide), ?_⟩
  rintro x hx ⟨n, f, rfl, -, -, h1, -⟩
  have : (createAllocAndFrees exAllocClash).apis.all (fun x => match x with
    | .function _ f _ => f.output.isNone
    | _ => true) = true := by decide
  have := List.all_eq_true.1 this _ hx
  simp only [h1] at this
  cases this

example : AllocNamesApart exCasts.apis := by
  have hs : ∀ q, Allocated exCasts.apis q → q = ⟨["a"], "Base"⟩ ∨ q = ⟨[], "D"⟩ := by
    intro q hq
    obtain ⟨a, ha, h⟩ := (allocated_iff _ _).1 hq
    have e : exCasts.apis = [.struct ⟨⟨["a"], "Base"⟩, none⟩ {} {},
      .struct ⟨⟨[], "D"⟩, none⟩ {} { bases := [⟨["a"], "Base"⟩], castableBases := [⟨["a"], "Base"⟩] }] := rfl
    rw [e] at ha
    simp only [List.mem_cons, List.not_mem_nil, or_false] at ha
    rcases ha with rfl | rfl
    · cases h; exact .inl rfl
    · cases h; exact .inr rfl
  constructor
  · intro x hx q hq
    have hx' : x.name ∈ exCasts.apis.map (·.name) := List.mem_map.2 ⟨x, hx, rfl⟩
    revert hx'
    generalize x.name = m
    rcases hs q hq with rfl | rfl
    · intro hm; constructor <;> (intro e; subst e; revert hm; decide)
    · intro hm; constructor <;> (intro e; subst e; revert hm; decide)
  · intro n sup h
    have : exCasts.apis.all (fun x => match x with
      | .subclass _ _ => false
      | _ => true) = true := by decide
    have := List.all_eq_true.1 this _ h
    cases this

/-! ## Constructor dependencies -/

/-- A function which a type needs if it is to be of use: its allocator and deallocator, and its copy and move
constructors, unless it was found to be impossible to generate. -/
def NeededBy (apis : List FnPre2Api) (ty : QName) (q : QName) : Prop :=
  ∃ n f a k r, Api.function n f a ∈ apis ∧ n.name = q ∧ a.kind = .traitMethod k ty r ∧ a.ignoreReason = none ∧
    (k = .alloc ∨ k = .dealloc ∨ k = .copyConstructor ∨ k = .moveConstructor)

theorem mem_importantConstructors (apis : List FnPre2Api) (ty q : QName) :
    q ∈ importantConstructors apis ty ↔ NeededBy apis ty q := by
  unfold importantConstructors
  rw [List.mem_filterMap]
  constructor
  · rintro ⟨a, ha, h⟩
    cases a with
    | function n f an =>
      dsimp only at h
      cases hk : an.kind with
      | traitMethod k ifor r =>
        rw [hk] at h
        dsimp only at h
        split at h
        · rename_i hc
          obtain ⟨h1, h2, h3⟩ := hc
          cases h
          subst h2
          exact ⟨n, f, an, k, r, ha, rfl, hk, h3, h1⟩
        · cases h
      | _ => rw [hk] at h; cases h
    | _ => cases h
  · rintro ⟨n, f, a, k, r, ha, rfl, hk, hi, hc⟩
    refine ⟨_, ha, ?_⟩
    dsimp only
    rw [hk]
    dsimp only
    rw [if_pos ⟨hc, rfl, hi⟩]

/-- What becomes of an item when the constructors are recorded. -/
inductive Decorated (apis : List FnPre2Api) : FnPre2Api → FnApi → Prop
  | none {n : ApiName} {d : StructDetails} {a : PodAndConstructorAnalysis}
      (h : a.pod.kind = .abstract ∨ a.pod.numGenerics ≠ 0) :
      Decorated apis (.struct n d a) (.struct n d ⟨a.pod, [], a.constructors⟩)
  | some {n : ApiName} {d : StructDetails} {a : PodAndConstructorAnalysis} {l : List QName}
      (h : a.pod.kind ≠ .abstract) (hg : a.pod.numGenerics = 0) (hl : ∀ q, q ∈ l ↔ NeededBy apis n.name q) :
      Decorated apis (.struct n d a) (.struct n d ⟨a.pod, l, a.constructors⟩)
  | other {a : FnPre2Api} (h : ∀ n d x, a ≠ .struct n d x) :
      Decorated apis a (a.mapAnalysis id (fun x => ⟨x.pod, [], x.constructors⟩) id)

theorem Decorated.name {apis : List FnPre2Api} {a : FnPre2Api} {b : FnApi} (h : Decorated apis a b) :
    b.name = a.name := by
  cases h with
  | other => exact Api.mapAnalysis_name _ _ _ _
  | _ => rfl

/-- The conversions `decorateTypes` uses. -/
def decorations (apis : List FnPre2Api) : Conversions (List QName) TypedefAnalysis PodAndConstructorAnalysis FnAnalysis
    TypedefAnalysis PodAndDepAnalysis FnAnalysis where
  func := fun s n f a => (s, .ok [.function n f a])
  struct := fun s n d a => ((decorateStruct apis s n d a).1, .ok [(decorateStruct apis s n d a).2])
  enum := fun s n i => (s, .ok [.enum n i])
  typedef := fun s n i o a => (s, .ok [.typedef n i o a])

/-- **C45**: each struct records exactly the functions it needs; those which are abstract or generic record none; nothing else
changes. -/
theorem constructor_deps (apis : ApiVec TypedefAnalysis PodAndConstructorAnalysis FnAnalysis) (hi : apis.Inv) :
    All2 (Decorated apis.apis) apis.apis (decorateTypes apis).apis := by
  have key : ∀ (l : List FnPre2Api) (taken : List QName), (l.map (·.name)).Nodup →
      (∀ x ∈ l, x.name ∉ taken) → All2 (Decorated apis.apis) l
        (flatMapM (fun s a => ((convertApi (decorations apis.apis) s a).1,
          apiOrError a.nameInfo (convertApi (decorations apis.apis) s a).2)) taken l).2 := by
    intro l
    induction l with
    | nil => intro _ _ _; exact .nil
    | cons x l ih =>
      intro taken hn ht
      rw [List.map_cons, List.nodup_cons] at hn
      have hrest : ∀ y ∈ l, y.name ∉ taken := fun y hy => ht y (.tail _ hy)
      cases x with
      | struct n d a =>
        by_cases h : a.pod.kind = .abstract ∨ a.pod.numGenerics > 0
        · have e : convertApi (decorations apis.apis) taken (.struct n d a) =
              (taken, .ok [.struct n d ⟨a.pod, [], a.constructors⟩]) := by
            show ((decorateStruct apis.apis taken n d a).1, _) = _
            unfold decorateStruct
            rw [if_pos h]
          rw [flatMapM]
          simp only [e, apiOrError]
          exact .cons (.none (h.imp id Nat.pos_iff_ne_zero.1)) (ih taken hn.2 hrest)
        · have e : convertApi (decorations apis.apis) taken (.struct n d a) =
              (n.name :: taken, .ok [.struct n d ⟨a.pod, importantConstructors apis.apis n.name, a.constructors⟩]) := by
            show ((decorateStruct apis.apis taken n d a).1, _) = _
            unfold decorateStruct
            rw [if_neg h, if_neg (show n.name ∉ taken from ht _ (.head _))]
          rw [flatMapM]
          simp only [e, apiOrError]
          refine .cons (.some (fun e => h (.inl e)) (Nat.eq_zero_of_not_pos fun e => h (.inr e))
            (mem_importantConstructors _ _)) (ih _ hn.2 ?_)
          intro y hy
          rw [List.mem_cons]
          rintro (e | e)
          · exact hn.1 (List.mem_map.2 ⟨y, hy, e⟩)
          · exact hrest y hy e
      | _ =>
        exact .cons (.other (by intro _ _ _ e; cases e)) (ih taken hn.2 hrest)
  have h := key apis.apis [] hi.1 (fun _ _ e => by cases e)
  have hn : ∀ {l : List FnPre2Api} {m : List FnApi}, All2 (Decorated apis.apis) l m →
      m.map (·.name) = l.map (·.name) := by
    intro l m h
    induction h with
    | nil => rfl
    | cons h _ ih => rw [List.map_cons, List.map_cons, h.name, ih]
  have e : (decorateTypes apis).apis = (flatMapM (fun s a => ((convertApi (decorations apis.apis) s a).1,
          apiOrError a.nameInfo (convertApi (decorations apis.apis) s a).2)) [] apis.apis).2 :=
    fromIter_apis _ (by have e := hn h; exact (congrArg List.Nodup e).mpr hi.1)
  rw [e]
  exact h

/-- The functions a struct needs after the pass are those it needed before it. -/
theorem decorated_struct (apis : ApiVec TypedefAnalysis PodAndConstructorAnalysis FnAnalysis) (hi : apis.Inv)
    (n : ApiName) (d : StructDetails) (a : PodAndDepAnalysis) (hs : .struct n d a ∈ (decorateTypes apis).apis)
    (ha : a.pod.kind ≠ .abstract) (hg : a.pod.numGenerics = 0) (q : QName) :
    q ∈ a.constructorAndAllocatorDeps ↔ NeededBy apis.apis n.name q := by
  have key : ∀ {l : List FnPre2Api} {m : List FnApi}, All2 (Decorated apis.apis) l m → ∀ x ∈ m,
      ∃ y ∈ l, Decorated apis.apis y x := by
    intro l m h
    induction h with
    | nil => intro x hx; cases hx
    | cons h _ ih =>
      intro x hx
      rcases List.mem_cons.1 hx with rfl | hx
      · exact ⟨_, .head _, h⟩
      · obtain ⟨y, hy, h⟩ := ih x hx
        exact ⟨y, .tail _ hy, h⟩
  obtain ⟨y, hy, h⟩ := key (constructor_deps apis hi) _ hs
  generalize hb : (Api.struct n d a : FnApi) = b at h
  cases h with
  | none h =>
    cases hb
    rcases h with h | h
    · exact absurd h ha
    · exact absurd hg h
  | some h hg hl =>
    cases hb
    exact hl q
  | other h =>
    cases y with
    | struct n' d' x => exact absurd rfl (h n' d' x)
    | _ => cases hb

/-- A struct with an allocator and two copy constructors, one of which is impossible. -/
def exDecorate : ApiVec TypedefAnalysis PodAndConstructorAnalysis FnAnalysis := ApiVec.fromIter
  [.struct ⟨⟨[], "S"⟩, none⟩ {} {}, .struct ⟨⟨[], "A"⟩, none⟩ {} { pod := { kind := .abstract } },
   .function ⟨⟨[], "S_alloc"⟩, none⟩ {} { kind := .traitMethod .alloc ⟨[], "S"⟩ {} },
   .function ⟨⟨[], "A_alloc"⟩, none⟩ {} { kind := .traitMethod .alloc ⟨[], "A"⟩ {} },
   .function ⟨⟨[], "S_copy"⟩, none⟩ {} { kind := .traitMethod .copyConstructor ⟨[], "S"⟩ {},
                                          ignoreReason := some ⟨.deleted, none⟩ },
   .function ⟨⟨[], "S_copy1"⟩, none⟩ {} { kind := .traitMethod .copyConstructor ⟨[], "S"⟩ {} }]

example : (decorateTypes exDecorate).apis.map FnApi.deps =
    [[⟨[], "S_alloc"⟩, ⟨[], "S_copy1"⟩], [], [], [], [], []] := by decide

/-- **C45**: a struct which survives garbage collection keeps all the functions it was recorded to need. -/
theorem needed_functions_kept (hash : Config → Nat) (c : Config) (apis out : FnApiVec) (hi : apis.Inv)
    (h : gc hash c apis = some out) (n : ApiName) (d : StructDetails) (a : PodAndDepAnalysis)
    (hs : .struct n d a ∈ out.apis) (q : QName) (hq : q ∈ a.constructorAndAllocatorDeps) (x : FnApi)
    (hx : x ∈ apis.apis) (hn : x.name = q) : x ∈ out.apis := by
  obtain ⟨-, hg⟩ := gc_exact hash c apis out hi h
  obtain ⟨hm, hr⟩ := (hg _).1 hs
  refine (hg x).2 ⟨hx, ?_⟩
  rw [hn]
  refine .step _ hm hr q ?_
  show q ∈ (if a.pod.kind = .pod then a.pod.fieldDeps ++ a.pod.bases ++ a.constructorAndAllocatorDeps
    else a.constructorAndAllocatorDeps)
  split
  · simp [hq]
  · exact hq

end Verif
