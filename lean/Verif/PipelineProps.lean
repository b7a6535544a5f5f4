import Verif.Pipeline
import Verif.ParseItemsProps
import Verif.TypedefPassProps
import Verif.PodPassProps
import Verif.SmallPassProps
import Verif.AllocProps
import Verif.FnPassProps
import Verif.AbstractProps
import Verif.NameCheckProps
import Verif.RemoveIgnoredProps
import Verif.GcProps

/-!
# C52, C04 and C50: the conversion as a whole
-/

set_option autoImplicit false

namespace Verif

/-! ## The stages of a run -/

/-- The stages of a conversion which succeeds, with what each hands to the next. -/
structure ConvertStages (fuel : Nat) (hash : Config → Nat) (sigOf : RustSig → RustFnSig) (policy : UnsafePolicy)
    (cfg : Config) (force : Bool) (cb : Callbacks) (items : List BindgenItem) (out : FnApiVec) where
  /-- The items found by the parser. -/
  found : ApiVec Unit Unit Unit
  typedefs : ApiVec TypedefAnalysis Unit Unit
  pods : ApiVec TypedefAnalysis PodAnalysis Unit
  fns : ApiVec TypedefAnalysis PodAndConstructorAnalysis FnAnalysis
  marked : ApiVec TypedefAnalysis PodAndConstructorAnalysis FnAnalysis
  /-- The items after the check of names. -/
  named : FnApiVec
  /-- The items the garbage collector keeps. -/
  collected : FnApiVec
  hparse : parseBindgenItems hash sigOf cfg cb items = some (.ok found)
  htypedefs : convertTypedefTargets fuel cfg cb.attrs found = .done typedefs
  hpods : analyzePodApis fuel hash cfg cb.attrs typedefs = .done (.ok pods)
  hfns : analyzeFunctions fuel hash policy cfg force
    (createAllocAndFrees (addCasts (replaceHopelessTypedefTargets cfg pods))) = .done fns
  hmarked : markTypesAbstract fns = some marked
  hnamed : checkNames (discardIgnoredFunctions (decorateTypes marked)) = some named
  hcollected : gc hash cfg (removeIgnored named) = some collected
  hout : out = appendCtypes collected

theorem ofOption_done {α : Type} {o : Option α} {a : α} : PassRun.ofOption o = .done a ↔ o = some a := by
  cases o <;> simp [PassRun.ofOption]

theorem andThen_ok {ε α β : Type} {r : PassRun (Except ε α)} {f : α → PassRun (Except ε β)} {b : β} :
    r.andThen f = .done (.ok b) ↔ ∃ a, r = .done (.ok a) ∧ f a = .done (.ok b) := by
  unfold PassRun.andThen
  rw [PassRun.bind_done]
  constructor
  · rintro ⟨e, rfl, h⟩
    cases e with
    | error e => cases h
    | ok a => exact ⟨a, rfl, h⟩
  · rintro ⟨a, rfl, h⟩
    exact ⟨_, rfl, h⟩

section
variable {fuel : Nat} {hash : Config → Nat} {sigOf : RustSig → RustFnSig} {policy : UnsafePolicy} {cfg : Config}
  {force : Bool} {cb : Callbacks} {items : List BindgenItem} {out : FnApiVec}

/-- A conversion succeeds if all its stages do. -/
theorem convert_ok_iff (fuel : Nat) (hash : Config → Nat) (sigOf : RustSig → RustFnSig) (policy : UnsafePolicy)
    (cfg : Config) (force : Bool) (cb : Callbacks) (items : List BindgenItem) (out : FnApiVec) :
    convertApisFrom fuel hash sigOf policy cfg force cb (some items) = .done (.ok out) ↔
      Nonempty (ConvertStages fuel hash sigOf policy cfg force cb items out) := by
  unfold convertApisFrom analysisPasses
  simp only [andThen_ok, PassRun.bind_done, ofOption_done]
  constructor
  · rintro ⟨found, h1, typedefs, h2, pods, ⟨r, h3, h3'⟩, pre, ⟨fns, h4, marked, h5, named, h6, h7⟩, collected, h8, h9⟩
    cases r with
    | error m => cases h3'
    | ok pods' =>
      cases h3'
      cases h7
      cases h9
      exact ⟨found, typedefs, pods, fns, marked, named, collected, h1, h2, h3, h4, h5, h6, h8, rfl⟩
  · rintro ⟨p⟩
    exact ⟨p.found, p.hparse, p.typedefs, p.htypedefs, p.pods, ⟨_, p.hpods, rfl⟩, _,
      ⟨p.fns, p.hfns, p.marked, p.hmarked, p.named, p.hnamed, rfl⟩, p.collected, p.hcollected, congrArg _ (congrArg _ p.hout.symm)⟩

/-! ## Names are unique at every stage -/

namespace ConvertStages
variable (p : ConvertStages fuel hash sigOf policy cfg force cb items out)
include p

theorem found_inv : p.found.Inv := by
  obtain ⟨l, -, -, h⟩ := (parse_ok_iff ..).1 p.hparse
  rw [h]
  exact (replaceExtern_spec cfg _ (fromIter_inv l)).1

theorem typedefs_inv : p.typedefs.Inv := by
  obtain ⟨s, l, -, -, h⟩ := typedef_pass _ _ _ _ _ p.htypedefs
  rw [h]
  exact ApiVec.extend_inv (fromIter_inv l) _

theorem pods_inv : p.pods.Inv := by
  obtain ⟨_, s, l, -, -, -, h⟩ := pod_pass _ _ _ _ _ _ p.hpods
  rw [h]
  exact ApiVec.extend_inv (fromIter_inv l) _

end ConvertStages

/-! ## Nothing is invented -/

/-- The item without what the analyses found out. -/
def Api.shape {T S F : Type} (a : Api T S F) : NullApi := a.mapAnalysis (fun _ => ()) (fun _ => ()) (fun _ => ())

theorem shape_map {T S F T' S' F' : Type} (ft : T → T') (fs : S → S') (ff : F → F') (a : Api T S F) :
    (a.mapAnalysis ft fs ff).shape = a.shape := by
  cases a <;> rfl

theorem shape_name {T S F : Type} (a : Api T S F) : a.shape.name = a.name := Api.mapAnalysis_name _ _ _ _

/-- Functions and instantiations of templates, which autocxx also makes itself. -/
def Api.isMade {T S F : Type} : Api T S F → Bool
  | .concreteType .. | .function .. => true
  | _ => false

/-- What is left of an item given up on: a marker which refers to the name of the item, or a type of which nothing is
known. -/
inductive Api.GivenUp {T S F : Type} : Api T S F → Prop
  | marker {n : ApiName} {e : Err} : GivenUp (.ignoredItem n e (some (.newForItem n.name.name)))
  | opaqueType {n : ApiName} {fwd : Bool} : GivenUp (.opaqueTypedef n fwd)

theorem made_shape {T S F T' S' F' : Type} {a : Api T S F} {b : Api T' S' F'} (h : a.shape = b.shape) :
    a.isMade = b.isMade := by
  cases a <;> cases b <;> first | rfl | cases h

theorem givenUp_shape {T S F T' S' F' : Type} {a : Api T S F} {b : Api T' S' F'} (h : a.shape = b.shape)
    (hg : a.GivenUp) : b.GivenUp := by
  cases hg with
  | marker =>
    cases b <;> first | (cases h; exact .marker) | cases h
  | opaqueType =>
    cases b <;> first | (cases h; exact .opaqueType) | cases h

theorem IsDup.givenUp {T S F : Type} {a : Api T S F} (h : a.IsDup) : a.GivenUp := by
  rw [h]
  exact .marker

/-- Apart from those, the items are in the list. -/
def Comes {T S F T' S' F' : Type} (l : List (Api T S F)) (m : List (Api T' S' F')) : Prop :=
  ∀ y ∈ m, y.isMade = true ∨ y.GivenUp ∨ ∃ x ∈ l, x.shape = y.shape

theorem Comes.trans {T S F T' S' F' T'' S'' F'' : Type} {l : List (Api T S F)} {m : List (Api T' S' F')}
    {n : List (Api T'' S'' F'')} (h : Comes l m) (h' : Comes m n) : Comes l n := by
  intro z hz
  rcases h' z hz with hz' | hz' | ⟨y, hy, e⟩
  · exact .inl hz'
  · exact .inr (.inl hz')
  · rcases h y hy with hy' | hy' | ⟨x, hx, e'⟩
    · exact .inl (made_shape e ▸ hy')
    · exact .inr (.inl (givenUp_shape e hy'))
    · exact .inr (.inr ⟨x, hx, e'.trans e⟩)

theorem held_fromIter {T S F : Type} (l : List (Api T S F)) : Held (ApiVec.fromIter l) l := by
  have := Held.empty.extend l
  rwa [List.nil_append] at this

theorem Comes.held {T S F T' S' F' : Type} {l : List (Api T S F)} {m : List (Api T' S' F')} {v : ApiVec T' S' F'}
    (h : Comes l m) (hv : Held v m) : Comes l v.apis := by
  intro y hy
  rcases hv.from_ y hy with hm | ⟨hi, -⟩
  · exact h y hm
  · exact .inr (.inl (IsDup.givenUp hi))

theorem Comes.all2 {T S F T' S' F' : Type} {R : Api T S F → Api T' S' F' → Prop} {l : List (Api T S F)}
    {m : List (Api T' S' F')} (h : All2 R l m) (hR : ∀ x ∈ l, ∀ y, R x y → y.GivenUp ∨ x.shape = y.shape) : Comes l m := by
  intro y hy
  obtain ⟨x, hx, hxy⟩ := h.right hy
  exact .inr ((hR x hx y hxy).imp id fun e => ⟨x, hx, e⟩)

theorem Comes.append {T S F T' S' F' : Type} {l : List (Api T S F)} {m n : List (Api T' S' F')} (h : Comes l m)
    (h' : Comes l n) : Comes l (m ++ n) := fun y hy => (List.mem_append.1 hy).elim (h y) (h' y)

theorem comes_extra {T S F T' S' F' : Type} {l : List (Api T S F)} {e : List NullApi} {ft : Unit → T'} {fs : Unit → S'}
    {ff : Unit → F'} (h : ∀ x ∈ e, IsInstantiation x ∨ x.IsDup) :
    Comes l (e.map (Api.mapAnalysis ft fs ff)) := by
  intro y hy
  obtain ⟨x, hx, rfl⟩ := List.mem_map.1 hy
  rcases h x hx with ⟨id, rs, cpp, rfl⟩ | hi
  · exact .inl rfl
  · exact .inr (.inl (IsDup.givenUp (hi.map _ _ _)))

/-! ### What the parser finds -/

/-- The kinds of items the parser gives, and what a class which is only declared and cannot be used refers to. -/
def Api.Parsed : NullApi → Prop
  | .forwardDeclaration n (some e) => e.ctx = some (.newForItem n.name.name)
  | .rustSubclassFn .. | .subclassTraitItem .. | .ctype .. | .opaqueTypedef .. => False
  | _ => True

theorem configured_parsed {a : NullApi} (h : Configured hash sigOf cfg a) : a.Parsed := by
  rcases h with ⟨-, rfl⟩ | ⟨_, -, rfl⟩ | ⟨_, -, _, -, rfl⟩ | ⟨_, _, -, rfl⟩ | ⟨_, -, rfl⟩ <;> trivial

theorem item_parsed {ns : List String} {l : List BindgenItem} {i : BindgenItem} {o : ItemOut} {a : NullApi}
    (h : ItemFate cfg cb ns i o) (hi : ∀ id items, i ≠ .mod id items) (ha : FromItem ns l o a) : a.Parsed := by
  unfold FromItem at ha
  cases h with
  | mod => exact absurd rfl (hi _ _)
  | foreign hf =>
    rcases ha with ha | ha | ha | ⟨f, hfm, rfl⟩
    · cases ha
    · cases ha
    · obtain ⟨id, hid, rfl⟩ := (foreign_found hf).2.2.2 a ha
      trivial
    · trivial
  | forward _ _ _ hat =>
    rcases ha with ha | ha | ha | ⟨f, hfm, rfl⟩
    · cases List.mem_singleton.1 ha
      obtain ⟨d, v, -, -, rfl⟩ := hat
      split
      · exact rfl
      · split
        · exact rfl
        · split
          · exact rfl
          · trivial
    · cases ha
    · cases ha
    · cases hfm
  | _ =>
    rcases ha with ha | ha | ha | ⟨f, hfm, rfl⟩
    · first | (cases ha; done) | (cases List.mem_singleton.1 ha; trivial)
    · first | (cases ha; done) | (cases List.mem_singleton.1 ha; trivial)
    · first | (cases ha; done) | (cases List.mem_singleton.1 ha; trivial)
    · cases hfm

theorem item_not_subclass {ns : List String} {l : List BindgenItem} {i : BindgenItem} {o : ItemOut} {a : NullApi}
    (h : ItemFate cfg cb ns i o) (hi : ∀ id items, i ≠ .mod id items) (ha : FromItem ns l o a) (n : ApiName) (q : QName) :
    a ≠ .subclass n q := by
  rintro rfl
  unfold FromItem at ha
  cases h with
  | mod => exact absurd rfl (hi _ _)
  | foreign hf =>
    rcases ha with ha | ha | ha | ⟨f, hfm, e⟩
    · cases ha
    · cases ha
    · obtain ⟨id, hid, e⟩ := (foreign_found hf).2.2.2 _ ha
      cases e
    · cases e
  | _ =>
    rcases ha with ha | ha | ha | ⟨f, hfm, e⟩
    · first | (cases ha; done) | (cases List.mem_singleton.1 ha; done)
    · first | (cases ha; done) | (cases List.mem_singleton.1 ha; done)
    · first | (cases ha; done) | (cases List.mem_singleton.1 ha; done)
    · cases e

theorem named_not_mod {i : BindgenItem} {id : Ident} (h : ItemNamed i id) : ∀ x items, i ≠ .mod x items := by
  intro x items e
  subst e
  cases h

/-- The items of the parser are of the kinds it makes. -/
theorem parsed_kinds {v : ApiVec Unit Unit Unit} (h : parseBindgenItems hash sigOf cfg cb items = some (.ok v))
    {a : NullApi} (ha : a ∈ v.apis) : a.Parsed := by
  obtain ⟨l, ⟨lc, root, outs, -, hroot, -, -⟩, -, -⟩ := (parse_ok_iff ..).1 h
  rcases parsed_from _ _ _ _ _ root v h hroot a ha with h | ⟨b, h1, h2⟩
  · obtain ⟨_, _, _, _, -, -, -, e⟩ := h
    rw [e]
    trivial
  · rcases h1 with rfl | rfl
    · rcases h2 with h2 | ⟨ns, l, i, o, -, -, hf, hfr, id, hn, -⟩
      · exact configured_parsed h2
      · exact item_parsed hf (named_not_mod hn) hfr
    · trivial

namespace ConvertStages
variable (p : ConvertStages fuel hash sigOf policy cfg force cb items out)
include p

theorem typedefs_come : Comes p.found.apis p.typedefs.apis := by
  obtain ⟨s, l, ht, he, h⟩ := typedef_pass _ _ _ _ _ p.htypedefs
  rw [h]
  refine ((Comes.all2 ht.all2 ?_).append (comes_extra he)).held ((held_fromIter l).extend _)
  rintro x - y ⟨_, _, hf⟩
  cases hf with
  | other => exact .inr (shape_map _ _ _ _).symm
  | use => exact .inr rfl
  | refused => exact .inl .marker
  | kept => exact .inr rfl

theorem pods_come : Comes p.typedefs.apis p.pods.apis := by
  obtain ⟨_, s, l, -, ht, he, h⟩ := pod_pass _ _ _ _ _ _ p.hpods
  rw [h]
  refine ((Comes.all2 ht.all2 ?_).append (comes_extra he)).held ((held_fromIter l).extend _)
  rintro x - y ⟨_, _, hf⟩
  cases hf with
  | other => exact .inr (shape_map _ _ _ _).symm
  | enum => exact .inr rfl
  | unusedParam => exact .inl .marker
  | notPublic => exact .inl .marker
  | refused => exact .inl .marker
  | kept => exact .inr rfl

/-- An item which only the parser makes is one of the parser's. -/
theorem pods_parsed {x : PodApi} (hx : x ∈ p.pods.apis) (hm : x.isMade = false) (hg : ¬ x.GivenUp) :
    ∃ y ∈ p.found.apis, y.shape = x.shape := by
  rcases p.typedefs_come.trans p.pods_come x hx with h | h | h
  · rw [hm] at h; cases h
  · exact absurd h hg
  · exact h

theorem hopeless_come : Comes p.pods.apis (replaceHopelessTypedefTargets cfg p.pods).apis := by
  refine Comes.all2 (hopeless_pass cfg p.pods p.pods_inv) ?_
  intro x hx y hf
  cases hf with
  | nested => exact .inl .marker
  | opaqueOfIgnored => exact .inl .opaqueType
  | opaqueOfFailed => exact .inl .opaqueType
  | typedef => exact .inr rfl
  | @failed n e =>
    obtain ⟨y, hy, hs⟩ := p.pods_parsed hx rfl (fun h => by cases h)
    have := parsed_kinds p.hparse hy
    cases y with
    | forwardDeclaration n' e' =>
      cases hs
      have he : e.ctx = some (.newForItem n.name.name) := this
      rw [he]
      exact .inl .marker
    | _ => cases hs
  | other => exact .inr rfl

end ConvertStages

theorem casts_come (v : ApiVec TypedefAnalysis PodAnalysis Unit) : Comes v.apis (addCasts v).apis := by
  refine Comes.held ?_ (held_fromIter _)
  intro y hy
  obtain ⟨x, hx, hy⟩ := List.mem_flatMap.1 hy
  cases x with
  | struct n d a =>
    rcases List.mem_append.1 hy with hy | hy
    · obtain ⟨b, -, rfl⟩ := List.mem_map.1 hy
      exact .inl rfl
    · cases List.mem_singleton.1 hy
      exact .inr (.inr ⟨_, hx, rfl⟩)
  | _ =>
    cases List.mem_singleton.1 hy
    exact .inr (.inr ⟨_, hx, rfl⟩)

theorem allocs_come (v : ApiVec TypedefAnalysis PodAnalysis Unit) : Comes v.apis (createAllocAndFrees v).apis := by
  have made : ∀ q, ∀ y ∈ createAllocAndFree q, y.isMade = true := by
    intro q y hy
    unfold createAllocAndFree at hy
    rcases List.mem_cons.1 hy with rfl | hy
    · rfl
    · cases List.mem_singleton.1 hy
      rfl
  refine Comes.held ?_ (held_fromIter _)
  intro y hy
  obtain ⟨x, hx, hy⟩ := List.mem_flatMap.1 hy
  cases x with
  | struct n d a =>
    rcases List.mem_append.1 hy with hy | hy
    · exact .inl (made _ y hy)
    · cases List.mem_singleton.1 hy
      exact .inr (.inr ⟨_, hx, rfl⟩)
  | subclass n sup =>
    rcases List.mem_append.1 hy with hy | hy
    · exact .inl (made _ y hy)
    · cases List.mem_singleton.1 hy
      exact .inr (.inr ⟨_, hx, rfl⟩)
  | _ =>
    cases List.mem_singleton.1 hy
    exact .inr (.inr ⟨_, hx, rfl⟩)

/-- The items given to the analysis of functions. -/
def ConvertStages.allocs (p : ConvertStages fuel hash sigOf policy cfg force cb items out) :
    ApiVec TypedefAnalysis PodAnalysis Unit :=
  createAllocAndFrees (addCasts (replaceHopelessTypedefTargets cfg p.pods))

namespace ConvertStages
variable (p : ConvertStages fuel hash sigOf policy cfg force cb items out)
include p

theorem allocs_from : Comes p.found.apis p.allocs.apis :=
  (((p.typedefs_come.trans p.pods_come).trans p.hopeless_come).trans (casts_come _)).trans (allocs_come _)

theorem allocs_inv : p.allocs.Inv := fromIter_inv _

theorem allocs_traitItems : traitItems p.allocs.apis = [] := by
  rw [traitItems, List.filterMap_eq_nil_iff]
  intro x hx
  cases x with
  | subclassTraitItem n d =>
    rcases p.allocs_from _ hx with h | h | ⟨y, hy, hs⟩
    · cases h
    · cases h
    · have := parsed_kinds p.hparse hy
      cases y with
      | subclassTraitItem => exact this.elim
      | _ => cases hs
  | _ => rfl

theorem fn_stages : Nonempty (FnPassStages fuel hash policy cfg force p.allocs.apis p.fns) :=
  pass_stages p.hfns p.allocs_traitItems

theorem fns_inv : p.fns.Inv := by
  obtain ⟨q⟩ := p.fn_stages
  exact q.held.inv

/-! ### No class is abstract before the search for abstract classes -/

theorem pods_not_abstract {n : ApiName} {d : StructDetails} {a : PodAnalysis} (h : .struct n d a ∈ p.pods.apis) :
    a.kind ≠ .abstract := by
  obtain ⟨_, s, l, -, ht, he, e⟩ := pod_pass _ _ _ _ _ _ p.hpods
  rw [e] at h
  rcases ((held_fromIter l).extend _).from_ _ h with h | ⟨h, -⟩
  · rcases List.mem_append.1 h with h | h
    · obtain ⟨x, -, _, _, hf⟩ := ht.all2.right h
      generalize hb : Api.struct n d a = b at hf
      cases hf with
      | other hs =>
        cases x with
        | struct n d u => exact absurd rfl (hs n d u)
        | _ => cases hb
      | kept _ _ _ hk =>
        cases hb
        have := hk.kind
        intro e
        rw [e] at this
        cases this
      | _ => cases hb
    · obtain ⟨x, hx, hb⟩ := List.mem_map.1 h
      rcases he x hx with ⟨id, rs, cpp, rfl⟩ | hi
      · cases hb
      · rw [hi] at hb; cases hb
  · cases h

theorem allocs_not_abstract {n : ApiName} {d : StructDetails} {a : PodAnalysis} (h : .struct n d a ∈ p.allocs.apis) :
    a.kind ≠ .abstract := by
  have h1 : .struct n d a ∈ (addCasts (replaceHopelessTypedefTargets cfg p.pods)).apis := by
    rcases (held_fromIter _).from_ _ h with h | ⟨h, -⟩
    · obtain ⟨x, hx, hy⟩ := List.mem_flatMap.1 h
      have alloc : ∀ q, Api.struct n d a ∉ createAllocAndFree q := by
        intro q hq
        unfold createAllocAndFree at hq
        rcases List.mem_cons.1 hq with hq | hq
        · cases hq
        · cases List.mem_singleton.1 hq
      cases x with
      | struct =>
        rcases List.mem_append.1 hy with hy | hy
        · exact absurd hy (alloc _)
        · cases List.mem_singleton.1 hy; exact hx
      | subclass =>
        rcases List.mem_append.1 hy with hy | hy
        · exact absurd hy (alloc _)
        · cases List.mem_singleton.1 hy
      | _ => cases List.mem_singleton.1 hy
    · cases h
  have h2 : .struct n d a ∈ (replaceHopelessTypedefTargets cfg p.pods).apis := by
    rcases (held_fromIter _).from_ _ h1 with h | ⟨h, -⟩
    · obtain ⟨x, hx, hy⟩ := List.mem_flatMap.1 h
      cases x with
      | struct =>
        rcases List.mem_append.1 hy with hy | hy
        · obtain ⟨b, -, hb⟩ := List.mem_map.1 hy
          cases hb
        · cases List.mem_singleton.1 hy; exact hx
      | _ => cases List.mem_singleton.1 hy
    · cases h
  obtain ⟨x, hx, hf⟩ := (hopeless_pass cfg p.pods p.pods_inv).right h2
  generalize hb : Api.struct n d a = b at hf
  cases hf with
  | other =>
    subst hb
    exact p.pods_not_abstract hx
  | _ => cases hb

theorem fns_not_abstract {n : ApiName} {d : StructDetails} {a : PodAndConstructorAnalysis}
    (h : .struct n d a ∈ p.fns.apis) : a.pod.kind ≠ .abstract := by
  obtain ⟨q⟩ := p.fn_stages
  have ho := items_from q h
  generalize hb : Api.struct n d a = b at ho
  cases ho with
  | @kept x hx =>
    cases x with
    | struct =>
      cases hb
      exact p.allocs_not_abstract hx
    | _ => cases hb
  | marker hm => subst hb; cases hm
  | override_ => cases hb
  | trait_ => cases hb
  | fn => cases hb
  | inst => cases hb

theorem marked_spec : p.marked.Inv ∧ ∃ keep : FnPre2Api → Bool,
    (∀ a, keep a = false ↔ ∃ cls, IsAbstract p.fns.apis cls ∧ IsConstructorOf a cls) ∧
    All2 (AbstractFate p.fns.apis) (p.fns.apis.filter keep) p.marked.apis := by
  rcases abstract_classes_partial p.fns p.fns_inv (fun _ _ _ h => p.fns_not_abstract h) with ⟨r, hr, hi, h⟩ | ⟨hn, -⟩
  · have := p.hmarked
    rw [hr] at this
    cases this
    exact ⟨hi, h⟩
  · have := p.hmarked
    rw [hn] at this
    cases this

theorem decorated_inv : (decorateTypes p.marked).Inv := fromIter_inv _

theorem discarded_inv : (discardIgnoredFunctions (decorateTypes p.marked)).Inv := fromIter_inv _

theorem named_inv : p.named.Inv := by
  have h := p.hnamed
  unfold checkNames at h
  split at h
  · cases h
  · rw [← Option.some.inj h]
    exact ApiVec.extend_inv ApiVec.inv_empty _

end ConvertStages

theorem riLoop_inv (valid ign : List QName) (v : FnApiVec) : (riLoop valid ign v).Inv := by
  fun_induction riLoop valid ign v with
  | case1 _ _ _ ih => exact ih
  | case2 => exact fromIter_inv _

theorem removeIgnored_inv (v : FnApiVec) : (removeIgnored v).Inv := riLoop_inv _ _ v

theorem appendCtypes_inv (v : FnApiVec) (hv : v.Inv) : (appendCtypes v).Inv := by
  unfold appendCtypes
  generalize ctypesUsed v.apis = m
  induction m generalizing v with
  | nil => exact hv
  | cons q m ih => exact ih _ (ApiVec.push_inv hv _)

/-! ### From the analysis of functions to the end -/

/-- The second item is the first, or what is left of it. -/
def Follows {T S F T' S' F' : Type} (x : Api T S F) (y : Api T' S' F') : Prop :=
  y.name = x.name ∧ (y.GivenUp ∨ y.shape = x.shape)

theorem Follows.trans {T S F T' S' F' T'' S'' F'' : Type} {x : Api T S F} {y : Api T' S' F'} {z : Api T'' S'' F''}
    (h : Follows x y) (h' : Follows y z) : Follows x z := by
  refine ⟨h'.1.trans h.1, ?_⟩
  rcases h'.2 with hz | hz
  · exact .inl hz
  · rcases h.2 with hy | hy
    · exact .inl (givenUp_shape hz.symm hy)
    · exact .inr (hz.trans hy)

theorem follows_shape {T S F T' S' F' : Type} {x : Api T S F} {y : Api T' S' F'} (h : y.shape = x.shape) : Follows x y :=
  ⟨by rw [← shape_name y, h, shape_name], .inr h⟩

/-- Not a function. -/
def Api.NotFn {T S F : Type} (a : Api T S F) : Prop := ∀ n f an, a ≠ .function n f an

theorem Follows.notFn {T S F T' S' F' : Type} {x : Api T S F} {y : Api T' S' F'} (h : Follows x y) (hx : x.NotFn) :
    y.NotFn := by
  intro n f an e
  subst e
  rcases h.2 with h | h
  · cases h
  · cases x with
    | function n f an => exact hx n f an rfl
    | _ => cases h

theorem abstract_follows {l : List FnPre2Api} {x y : FnPre2Api} (h : AbstractFate l x y) : Follows x y := by
  cases h with
  | marked => exact follows_shape rfl
  | nested => exact ⟨rfl, .inl .marker⟩
  | unchanged => exact follows_shape rfl

theorem decorated_follows {l : List FnPre2Api} {x : FnPre2Api} {y : FnApi} (h : Decorated l x y) : Follows x y := by
  cases h with
  | none => exact follows_shape rfl
  | some => exact follows_shape rfl
  | other => exact follows_shape (shape_map _ _ _ _)

theorem discard_follows {x y : FnApi} (h : DiscardFate x y) (hx : x.NotFn) : Follows x y := by
  cases h with
  | discarded => exact absurd rfl (hx _ _ _)
  | kept => exact follows_shape rfl
  | other => exact follows_shape rfl

theorem name_follows {l : List FnApi} {x y : FnApi} (h : NameFate l x y) : Follows x y := by
  cases h with
  | kept => exact follows_shape rfl
  | badIdent => exact ⟨rfl, .inl .marker⟩
  | collides => exact ⟨rfl, .inl .marker⟩

theorem remove_follows {l : List FnApi} {x y : FnApi} (h : Fate l x y) (hx : x.NotFn) : Follows x y := by
  have ctx : ∀ {c}, MarkerContext x c → c = some (.newForItem x.name.name) := by
    intro c hc
    cases hc with
    | item => rfl
    | _ => exact absurd rfl (hx _ _ _)
  cases h with
  | kept => exact follows_shape rfl
  | ignoredDep _ _ _ c hc => rw [ctx hc]; exact ⟨rfl, .inl .marker⟩
  | unknownDep _ _ _ _ _ c hc => rw [ctx hc]; exact ⟨rfl, .inl .marker⟩

namespace ConvertStages
variable (p : ConvertStages fuel hash sigOf policy cfg force cb items out)
include p

/-- What was known about the items when the unused ones were dropped. -/
def filtered : FnApiVec := removeIgnored p.named

theorem filtered_inv : p.filtered.Inv := removeIgnored_inv _

theorem collected_iff (a : FnApi) :
    a ∈ p.collected.apis ↔ a ∈ p.filtered.apis ∧ Reachable hash cfg p.filtered.apis a.name :=
  (gc_exact hash cfg _ _ p.filtered_inv p.hcollected).2 a

theorem collected_inv : p.collected.Inv := (gc_exact hash cfg _ _ p.filtered_inv p.hcollected).1

theorem out_inv : out.Inv := by
  rw [p.hout]
  exact appendCtypes_inv _ p.collected_inv

/-- An item other than a function is followed to the end of the analyses. -/
theorem item_followed {x : FnPre2Api} (hx : x ∈ p.fns.apis) (hn : x.NotFn) :
    ∃ y ∈ p.filtered.apis, Follows x y := by
  obtain ⟨-, keep, hk, h1⟩ := p.marked_spec
  have hkx : keep x = true := by
    cases h : keep x with
    | true => rfl
    | false =>
      obtain ⟨cls, -, n, f, an, e, -⟩ := (hk x).1 h
      exact absurd e (hn n f an)
  obtain ⟨a, ha, fa⟩ := h1.left (List.mem_filter.2 ⟨hx, hkx⟩)
  obtain ⟨b, hb, fb⟩ := (constructor_deps p.marked p.marked_spec.1).left ha
  obtain ⟨c, hc, fc⟩ := (discard_ignored_functions_spec _ p.decorated_inv).left hb
  obtain ⟨d, hd, fd⟩ := (check_names_fates _ _ p.discarded_inv p.hnamed).left hc
  obtain ⟨e, he, fe⟩ := (remove_ignored_fates p.named p.named_inv).left hd
  have h1 := (abstract_follows fa).trans (decorated_follows fb)
  have h2 := h1.trans (discard_follows fc (h1.notFn hn))
  have h3 := h2.trans (name_follows fd)
  exact ⟨e, he, h3.trans (remove_follows fe (h3.notFn hn))⟩

/-- Where a real item at the end of the analyses comes from. -/
theorem item_origin {y : FnApi} (hy : y ∈ p.filtered.apis) (hr : y.isIgnored = false) :
    y ∈ p.named.apis ∧ y ∈ (discardIgnoredFunctions (decorateTypes p.marked)).apis ∧
    ∃ x ∈ p.fns.apis, x.shape = y.shape ∧ ∀ n f an, y = .function n f an →
      x = .function n f an ∧ an.ignoreReason = none ∧ ∀ cls, IsAbstract p.fns.apis cls → ¬ IsConstructorOf x cls := by
  have hd := (remove_ignored_sound_partial p.named p.named_inv y hy hr).1
  obtain ⟨c, hc, fd⟩ := (check_names_fates _ _ p.discarded_inv p.hnamed).right hd
  have hcy : c = y := by
    cases fd with
    | kept => rfl
    | badIdent => cases hr
    | collides => cases hr
  subst hcy
  refine ⟨hd, hc, ?_⟩
  obtain ⟨b, hb, fc⟩ := (discard_ignored_functions_spec _ p.decorated_inv).right hc
  have hbc : b = c := by
    cases fc with
    | discarded => cases hr
    | kept => rfl
    | other => rfl
  have hre : ∀ n f an, c = .function n f an → an.ignoreReason = none := by
    rintro n f an rfl
    cases fc with
    | kept h => exact h
    | other h => exact absurd rfl (h n f an)
  subst hbc
  obtain ⟨a, ha, fb⟩ := (constructor_deps p.marked p.marked_spec.1).right hb
  obtain ⟨-, keep, hk, h1⟩ := p.marked_spec
  obtain ⟨x, hx, fa⟩ := h1.right ha
  obtain ⟨hx, hkx⟩ := List.mem_filter.1 hx
  refine ⟨x, hx, ?_, ?_⟩
  · have e1 : a.shape = b.shape := by
      cases fb with
      | none => rfl
      | some => rfl
      | other => exact (shape_map _ _ _ _).symm
    have e2 : x.shape = a.shape := by
      cases fa with
      | marked => rfl
      | nested =>
        cases b with
        | ignoredItem => cases hr
        | _ => cases e1
      | unchanged => rfl
    exact e2.trans e1
  · rintro n f an rfl
    have ha : a = .function n f an := by
      generalize hg : (Api.function n f an : FnApi) = g at fb
      cases fb with
      | none => cases hg
      | some => cases hg
      | other =>
        cases a with
        | function => cases hg; rfl
        | _ => cases hg
    have hxa : x = .function n f an := by
      subst ha
      generalize hg : (Api.function n f an : FnPre2Api) = g at fa
      cases fa with
      | marked => cases hg
      | nested => cases hg
      | unchanged => rfl
    refine ⟨hxa, hre n f an rfl, fun cls hc hcon => ?_⟩
    have := (hk x).2 ⟨cls, hc, hcon⟩
    rw [hkx] at this
    cases this

end ConvertStages

/-! ## What is delivered -/

theorem filterMap_nodup_inj {α β : Type} {f : α → Option β} {l : List α} (h : (l.filterMap f).Nodup) {a b : α}
    (ha : a ∈ l) (hb : b ∈ l) {n : β} (hna : f a = some n) (hnb : f b = some n) : a = b := by
  induction l with
  | nil => cases ha
  | cons x l ih =>
    have other : ∀ y ∈ l, f x = some n → f y ≠ some n := by
      intro y hy hx hn
      rw [List.filterMap_cons, hx] at h
      exact (List.nodup_cons.1 h).1 (List.mem_filterMap.2 ⟨y, hy, hn⟩)
    rcases List.mem_cons.1 ha with rfl | ha'
    · rcases List.mem_cons.1 hb with rfl | hb'
      · rfl
      · exact absurd hnb (other b hb' hna)
    · rcases List.mem_cons.1 hb with rfl | hb'
      · exact absurd hna (other a ha' hnb)
      · refine ih ?_ ha' hb'
        rw [List.filterMap_cons] at h
        split at h
        · exact h
        · exact (List.nodup_cons.1 h).2

/-- A set of items which is complete in itself. -/
structure Delivered (hash : Config → Nat) (cfg : Config) (l : FnApiVec) : Prop where
  /-- No two have the same qualified name. -/
  names : (l.apis.map (·.name)).Nodup
  /-- No two have the same name in the bridge. -/
  bridge : ∀ a ∈ l.apis, ∀ b ∈ l.apis, ∀ n, FnApi.cxxbridgeName a = some n → FnApi.cxxbridgeName b = some n → a = b
  /-- cxx accepts all identifiers. -/
  idents : ∀ a ∈ l.apis, a.isIgnored = false → ∀ s ∈ emittedIdents a, CxxAcceptable s
  /-- All are wanted: asked for, or needed by another of them which is. -/
  wanted : ∀ a ∈ l.apis, Reachable hash cfg l.apis a.name
  /-- What a usable item depends on is built in or is delivered too. If it is a marker then one for an item with
  an unknown dependency. Helpers of a subclass are delivered with it. -/
  closed : ∀ a ∈ l.apis, a.isIgnored = false → ∀ d ∈ FnApi.deps a, isKnownType d = true ∨
    (∃ b ∈ l.apis, b.name = d ∧ (b.isIgnored = true → ∃ n q c, b = .ignoredItem n (.unknownDependentType q) c)) ∨
    ∃ sc ∈ cfg.subclasses, (d = ⟨[], sc.subclass ++ "Holder"⟩ ∨ d = ⟨[], sc.subclass ++ "Cpp"⟩) ∧
      (isKnownType ⟨[], sc.subclass⟩ = false → ∃ b ∈ l.apis, b.name = ⟨[], sc.subclass⟩)
  /-- No function is one which the analysis refused. -/
  usable : ∀ n f an, .function n f an ∈ l.apis → an.ignoreReason = none

theorem reachable_mono {l m : List FnApi} (h : ∀ a ∈ l, Reachable hash cfg l a.name → a ∈ m) {q : QName}
    (hq : Reachable hash cfg l q) : Reachable hash cfg m q := by
  induction hq with
  | root a ha hl => exact .root a (h a ha (.root a ha hl)) hl
  | step a ha hr d hd ih => exact .step a (h a ha hr) ih d hd

theorem toCppName_plain {n : String} (h : isKnownType ⟨[], n⟩ = false) : QName.toCppName ⟨[], n⟩ = n := by
  have : knownGet ⟨[], n⟩ = none := by
    unfold isKnownType at h
    cases hk : knownGet ⟨[], n⟩ with
    | none => rfl
    | some d => rw [hk] at h; cases h
  unfold QName.toCppName specialCppName
  rw [this]
  rfl

theorem allowlist_name_own {y : FnApi} (h : y.GivenUp) : FnApi.nameForAllowlist y = y.name := by
  cases h with
  | @marker n e =>
    show FnApi.nameForAllowlist (.ignoredItem n e (some (.newForItem n.name.name))) = n.name
    unfold ErrorContext.newForItem
    split <;> rfl
  | opaqueType => rfl

/-- The allowlist name of an item other than a function. -/
def NullApi.listedAs (a : NullApi) : QName :=
  FnApi.nameForAllowlist (a.mapAnalysis (fun _ => default) (fun _ => default) (fun _ => default))

theorem listedAs_shape {y : FnApi} (hy : y.NotFn) : NullApi.listedAs y.shape = FnApi.nameForAllowlist y := by
  cases y with
  | function n f an => exact absurd rfl (hy n f an)
  | _ => rfl

theorem listedAs_of_shape {T S F : Type} {x : Api T S F} (hx : x.NotFn) {a : NullApi} (ha : a.shape = x.shape) :
    NullApi.listedAs x.shape = NullApi.listedAs a := by
  cases a with
  | function n f an =>
    cases x with
    | function => exact absurd rfl (hx _ _ _)
    | _ => cases ha
  | _ => rw [← ha]; rfl

/-- Items which passes invent: functions, instantiations of templates, overrides and trait items of subclasses. -/
def Api.invented {T S F : Type} : Api T S F → Bool
  | .function .. | .concreteType .. | .rustSubclassFn .. | .subclassTraitItem .. => true
  | _ => false

theorem casts_named {v : ApiVec TypedefAnalysis PodAnalysis Unit} {x : PodApi} (hx : x ∈ v.apis) :
    ∃ y ∈ (addCasts v).apis, y.name = x.name := by
  refine (held_fromIter _).named x (List.mem_flatMap.2 ⟨x, hx, ?_⟩)
  cases x <;> simp

theorem allocs_named {v : ApiVec TypedefAnalysis PodAnalysis Unit} {x : PodApi} (hx : x ∈ v.apis) :
    ∃ y ∈ (createAllocAndFrees v).apis, y.name = x.name := by
  refine (held_fromIter _).named x (List.mem_flatMap.2 ⟨x, hx, ?_⟩)
  cases x <;> simp

namespace ConvertStages
variable (p : ConvertStages fuel hash sigOf policy cfg force cb items out)
include p

/-- A subclass comes from the configuration. -/
theorem subclass_configured {n : ApiName} {sup : QName} (h : .subclass n sup ∈ p.named.apis) :
    ∃ sc ∈ cfg.subclasses, n = ⟨⟨[], sc.subclass⟩, none⟩ ∧ sup = QName.ofCppName sc.superclass := by
  obtain ⟨c, hc, fd⟩ := (check_names_fates _ _ p.discarded_inv p.hnamed).right h
  have hcy : c = .subclass n sup := by
    generalize hg : (Api.subclass n sup : FnApi) = g at fd
    cases fd with
    | kept => exact hg.symm ▸ rfl
    | badIdent => cases hg
    | collides => cases hg
  subst hcy
  obtain ⟨b, hb, fc⟩ := (discard_ignored_functions_spec _ p.decorated_inv).right hc
  have hbc : b = .subclass n sup := by
    generalize hg : (Api.subclass n sup : FnApi) = g at fc
    cases fc with
    | other => exact hg.symm ▸ rfl
    | discarded => cases hg
    | kept => cases hg
  subst hbc
  obtain ⟨a, ha, fb⟩ := (constructor_deps p.marked p.marked_spec.1).right hb
  have hab : a = .subclass n sup := by
    generalize hg : (Api.subclass n sup : FnApi) = g at fb
    cases fb with
    | other =>
      cases a with
      | subclass => cases hg; rfl
      | _ => cases hg
    | none => cases hg
    | some => cases hg
  subst hab
  obtain ⟨-, keep, hk, h1⟩ := p.marked_spec
  obtain ⟨x, hx, fa⟩ := h1.right ha
  have hx' : x = .subclass n sup := by
    generalize hg : (Api.subclass n sup : FnPre2Api) = g at fa
    cases fa with
    | unchanged => exact hg.symm ▸ rfl
    | marked => cases hg
    | nested => cases hg
  subst hx'
  obtain ⟨q⟩ := p.fn_stages
  have ho := items_from q (List.mem_filter.1 hx).1
  have hal : .subclass n sup ∈ p.allocs.apis := by
    generalize hg : (Api.subclass n sup : FnPre2Api) = g at ho
    cases ho with
    | @kept z hz =>
      cases z with
      | subclass => cases hg; exact hz
      | _ => cases hg
    | marker hm => subst hg; cases hm
    | override_ => cases hg
    | trait_ => cases hg
    | fn => cases hg
    | inst => cases hg
  rcases p.allocs_from _ hal with h | h | ⟨y, hy, hs⟩
  · cases h
  · cases h
  · cases y with
    | subclass =>
      cases hs
      obtain ⟨l, ⟨lc, root, outs, -, hroot, -, -⟩, -, -⟩ := (parse_ok_iff ..).1 p.hparse
      rcases parsed_from _ _ _ _ _ root _ p.hparse hroot _ hy with h | ⟨b, h1, h2⟩
      · obtain ⟨_, _, _, _, -, -, -, e⟩ := h
        cases e
      · rcases h1 with rfl | e
        · rcases h2 with h2 | ⟨ns, l, i, o, -, -, hf, hfr, id, hn, -⟩
          · rcases h2 with ⟨-, e⟩ | ⟨sc, hsc, e⟩ | ⟨_, -, _, -, e⟩ | ⟨_, _, -, e⟩ | ⟨_, -, e⟩
            · cases e
            · cases e
              exact ⟨sc, hsc, rfl, rfl⟩
            · cases e
            · cases e
            · cases e
          · exact (item_not_subclass hf (named_not_mod hn) hfr _ _ rfl).elim
        · cases e
    | _ => cases hs

/-- **C52**: the items left by the garbage collector are complete in themselves. -/
theorem delivered : Delivered hash cfg p.collected := by
  have hin : ∀ a ∈ p.filtered.apis, Reachable hash cfg p.filtered.apis a.name → a ∈ p.collected.apis :=
    fun a ha hr => (p.collected_iff a).2 ⟨ha, hr⟩
  have hreal : ∀ a ∈ p.collected.apis, a.isIgnored = false → a ∈ p.named.apis := fun a ha hr =>
    (p.item_origin ((p.collected_iff a).1 ha).1 hr).1
  refine ⟨p.collected_inv.1, ?_, ?_, ?_, ?_, ?_⟩
  · have hu := check_names_unique _ _ p.discarded_inv p.hnamed
    intro a ha b hb n hna hnb
    have ra : a.isIgnored = false := by cases a <;> first | rfl | cases hna
    have rb : b.isIgnored = false := by cases b <;> first | rfl | cases hnb
    exact filterMap_nodup_inj hu (hreal a ha ra) (hreal b hb rb) hna hnb
  · intro a ha hr
    exact (check_names_idents _ _ p.discarded_inv p.hnamed).1 a (hreal a ha hr) hr
  · intro a ha
    exact reachable_mono hin ((p.collected_iff a).1 ha).2
  · intro a ha hr d hd
    obtain ⟨haf, hreach⟩ := (p.collected_iff a).1 ha
    have hrd : Reachable hash cfg p.filtered.apis d := .step a haf hreach d hd
    obtain ⟨ign, hign, -, hall⟩ := removeIgnored_final p.named p.named_inv
    have hdeps : (d ∈ validNames p.named.apis ∨ isKnownType d = true) ∧ d ∉ ign := by
      obtain ⟨b, hb, hf⟩ := hall.right haf
      cases hf with
      | kept h => exact ⟨(depKnown_iff _ _).1 (h d hd).1, (h d hd).2⟩
      | ignoredDep => cases hr
      | unknownDep => cases hr
    rcases hdeps.1 with hv | hk
    · right
      unfold validNames at hv
      obtain ⟨c, hc, hdc⟩ := List.mem_flatMap.1 hv
      obtain ⟨hc, hcr⟩ := List.mem_filter.1 hc
      obtain ⟨c', hc', hf⟩ := hall.left hc
      have main : d = c.name → ∃ b ∈ p.collected.apis, b.name = d ∧
          (b.isIgnored = true → ∃ n q x, b = .ignoredItem n (.unknownDependentType q) x) := by
        rintro rfl
        refine ⟨c', hin c' hc' (hf.name ▸ hrd), hf.name.symm, fun hi => ?_⟩
        cases hf with
        | kept => rw [hi] at hcr; cases hcr
        | ignoredDep _ _ _ hn => exact absurd hn hdeps.2
        | unknownDep q => exact ⟨_, q, _, rfl⟩
      by_cases e : d = c.name
      · exact .inl (main e)
      · cases c with
        | subclass n sup =>
          obtain ⟨sc, hsc, rfl, rfl⟩ := p.subclass_configured hc
          refine .inr ⟨sc, hsc, ?_, fun hk => ?_⟩
          · have : d ∈ [(⟨[], sc.subclass⟩ : QName), ⟨[], sc.subclass ++ "Holder"⟩, ⟨[], sc.subclass ++ "Cpp"⟩] := hdc
            simp only [List.mem_cons, List.not_mem_nil, or_false] at this
            rcases this with rfl | h | h
            · exact absurd rfl e
            · exact .inl h
            · exact .inr h
          · have hfo : Follows (.subclass ⟨⟨[], sc.subclass⟩, none⟩ (QName.ofCppName sc.superclass) : FnApi) c' := by
              have hnf : Api.NotFn (.subclass ⟨⟨[], sc.subclass⟩, none⟩ (QName.ofCppName sc.superclass) : FnApi) := by
                intro _ _ _ e
                cases e
              obtain ⟨b', hb', ff⟩ := (remove_ignored_fates p.named p.named_inv).left hc
              have hfol := remove_follows ff hnf
              have : b' = c' := by
                have h1 := (ApiVec.get?_some_iff (removeIgnored_inv p.named) _ _).2 ⟨hb', rfl⟩
                have h2 := (ApiVec.get?_some_iff (removeIgnored_inv p.named) _ _).2 ⟨hc', rfl⟩
                rw [hfol.1] at h1
                rw [← hf.name, h1] at h2
                exact Option.some.inj h2
              exact this ▸ hfol
            have hlist : FnApi.nameForAllowlist c' = ⟨[], sc.subclass⟩ := by
              rcases hfo.2 with hg | hs
              · rw [allowlist_name_own hg]; exact hfo.1
              · cases c' with
                | subclass => cases hs; rfl
                | _ => cases hs
            refine ⟨c', hin c' hc' (.root c' hc' ?_), hfo.1⟩
            rw [hlist, toCppName_plain hk, on_allowlist_iff]
            exact .inl (.subclass sc hsc rfl)
        | _ => exact absurd (List.mem_singleton.1 hdc) e
    · exact .inl hk
  · intro n f an h
    obtain ⟨-, -, x, -, -, hx⟩ := p.item_origin ((p.collected_iff _).1 h).1 rfl
    exact (hx n f an rfl).2.1

/-- Every name the parser found is still there when functions are analysed. -/
theorem allocs_named {a : NullApi} (ha : a ∈ p.found.apis) : ∃ x ∈ p.allocs.apis, x.name = a.name := by
  have h1 : ∃ b ∈ p.typedefs.apis, b.name = a.name := by
    obtain ⟨_, _, b, -, h⟩ := typedef_pass_item _ _ _ _ p.found_inv _ p.htypedefs a ha
    rcases h with h | ⟨x, h, -⟩
    · exact ⟨b, (ApiVec.get?_some_iff p.typedefs_inv _ _).1 h⟩
    · exact ⟨x, (ApiVec.get?_some_iff p.typedefs_inv _ _).1 h⟩
  obtain ⟨b, hb, hbn⟩ := h1
  have h2 : ∃ c ∈ p.pods.apis, c.name = a.name := by
    obtain ⟨_, _, _, c, -, -, h⟩ := pod_pass_item _ _ _ _ _ p.typedefs_inv _ p.hpods b hb
    rw [hbn] at h
    rcases h with h | ⟨x, h, -⟩
    · exact ⟨c, (ApiVec.get?_some_iff p.pods_inv _ _).1 h⟩
    · exact ⟨x, (ApiVec.get?_some_iff p.pods_inv _ _).1 h⟩
  obtain ⟨c, hc, hcn⟩ := h2
  obtain ⟨d, hd, hf⟩ := (hopeless_pass cfg p.pods p.pods_inv).left hc
  obtain ⟨e, he, hen⟩ := casts_named hd
  obtain ⟨g, hg, hgn⟩ := Verif.allocs_named he
  exact ⟨g, hg, by rw [hgn, hen, hf.name, hcn]⟩

/-- **C04, C50 (the whole conversion)**: anything but a function which the parser found and the user asked for is
delivered, or what is delivered in its place says that it was given up; unless an item invented on the way took
its name. -/
theorem item_delivered {a : NullApi} (ha : a ∈ p.found.apis) (hfn : a.isFn = false)
    (h1 : ∀ y ∈ p.allocs.apis, y.name = a.name → y.invented = false)
    (h2 : ∀ y ∈ p.fns.apis, y.name = a.name → y.invented = false)
    (hl : cfg.isOnAllowlist hash a.name.toCppName = some true)
    (hl' : cfg.isOnAllowlist hash (NullApi.listedAs a).toCppName = some true) :
    ∃ b ∈ out.apis, Follows a b := by
  have hna : a.NotFn := by
    rintro n f an rfl
    cases hfn
  obtain ⟨x, hx, hxn⟩ := p.allocs_named ha
  have hax : Follows a x := by
    refine ⟨hxn, ?_⟩
    rcases p.allocs_from x hx with h | h | ⟨z, hz, hs⟩
    · have := h1 x hx hxn
      cases x <;> first | (cases h; done) | cases this
    · exact .inl h
    · have hzn : z.name = a.name := by
        rw [← hxn, ← shape_name z, hs, shape_name]
      have h3 := (ApiVec.get?_some_iff p.found_inv _ _).2 ⟨hz, hzn⟩
      have h4 := (ApiVec.get?_some_iff p.found_inv _ _).2 ⟨ha, rfl⟩
      rw [h3] at h4
      exact .inr (Option.some.inj h4 ▸ hs.symm)
  have hxf : x.isFn = false := by
    have := hax.notFn hna
    cases x <;> first | rfl | exact absurd rfl (this _ _ _)
  obtain ⟨q⟩ := p.fn_stages
  obtain ⟨y, hy, hyn⟩ := (items_reported q hx hxf).1
  rw [Api.mapAnalysis_name] at hyn
  have hxy : Follows x y := by
    refine ⟨hyn, ?_⟩
    have hinv := h2 y hy (hyn.trans hxn)
    have ho := items_from q hy
    cases ho with
    | @kept x' hx' =>
      rw [Api.mapAnalysis_name] at hyn
      have h3 := (ApiVec.get?_some_iff p.allocs_inv _ _).2 ⟨hx', hyn⟩
      have h4 := (ApiVec.get?_some_iff p.allocs_inv _ _).2 ⟨hx, rfl⟩
      rw [h3] at h4
      rw [Option.some.inj h4]
      exact .inr (shape_map _ _ _ _)
    | fn => cases hinv
    | override_ => cases hinv
    | trait_ => cases hinv
    | inst => cases hinv
    | marker h => exact .inl (IsDup.givenUp h)
  have hay := hax.trans hxy
  obtain ⟨z, hz, hyz⟩ := p.item_followed hy (hay.notFn hna)
  have haz := hay.trans hyz
  have hlist : cfg.isOnAllowlist hash (FnApi.nameForAllowlist z).toCppName = some true := by
    rcases haz.2 with h | h
    · rw [allowlist_name_own h, haz.1]
      exact hl
    · rw [← listedAs_shape (haz.notFn hna), h, listedAs_of_shape hna rfl]
      exact hl'
  have hzc : z ∈ p.collected.apis := (p.collected_iff z).2 ⟨hz, .root z hz hlist⟩
  have hget := (ApiVec.get?_some_iff p.collected_inv z.name z).2 ⟨hzc, rfl⟩
  have hout := appendCtypes_get p.collected p.collected_inv z.name
  rw [hget] at hout
  have hout := (congrArg (fun v => ApiVec.get? v z.name) p.hout).trans hout
  have hdone : ∃ b, out.get? z.name = some b ∧ Follows z b := by
    rw [hout]
    split
    · split
      · rename_i ty hty
        exact ⟨ApiVec.duplicateMarker z.name, rfl, rfl, .inl .marker⟩
      · exact ⟨z, rfl, follows_shape rfl⟩
    · exact ⟨z, rfl, follows_shape rfl⟩
  obtain ⟨b, hb, hf⟩ := hdone
  exact ⟨b, ((ApiVec.get?_some_iff p.out_inv _ _).1 hb).1, haz.trans hf⟩

end ConvertStages

end

end Verif
