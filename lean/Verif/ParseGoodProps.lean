import Verif.CppRunProps
import Verif.ParseItemsProps

/-!
# C71: what must hold of the header

`WellNamed` says of bindgen's output, of what it reported and of the configuration what the earlier files of C71 ask of
the items the parser finds (`FoundItems`). `convert_header_panics` and `convert_header_safe` are then statements about
the header: whoever gives autocxx such a header and does not write Rust subclasses never sees it crash.
-/

set_option autoImplicit false

namespace Verif

/-! ### Specification -/

/-- A C++ name as bindgen reports it: identifiers with `::` between them, and none is `Pin`. -/
def Spelled (c : String) : Prop := ∃ q : QName, GoodQ q ∧ "Pin" ∉ q.segs ∧ c = joinCC q.segs

/-- The name of a class inside the class it is nested in, if it is, or else its name. -/
inductive OwnName (cb : Callbacks) (q : QName) : String → Prop
  | name : OwnName cb q q.name
  | nested {c x : String} (h : cb.originalName q = some (some c)) (hx : finalSegment c = some x) : OwnName cb q x

/-- The function is named like the class, perhaps with a number, so that it looks like a constructor. -/
def LooksLikeCtor (cb : Callbacks) (name : ApiName) (f : FuncToConvert) (q : QName) : Prop :=
  ∃ x ideal, OwnName cb q x ∧ idealRustName f.ident name.cppName = .done ideal ∧ constructorWithSuffix ideal x ≠ none

/-- A function with its class, as bindgen describes it. -/
structure FnWell (cb : Callbacks) (name : ApiName) (f : FuncToConvert) : Prop where
  ident : isIdentText f.ident = true
  cpp : ∀ c, name.cppName = some c → GoodName c ∧ c ≠ "Pin"
  inputs : ∀ i ∈ f.inputs, GoodInput i
  output : ∀ t, f.output = some t → GoodTy t
  self : ∀ q, f.selfTy = some q → isIdentText q.name = true
  /-- `this` comes first, and is a pointer. -/
  first : (∃ t, .typed "this" t ∈ f.inputs) → ∃ mu e l, f.inputs = .typed "this" (.ptr mu e) :: l
  /-- What has a class but no `this` is no special member, and does not look like a constructor. -/
  static : ∀ q, f.selfTy = some q → (∀ t, .typed "this" t ∉ f.inputs) → f.specialMember ≠ some .copyConstructor ∧
    f.specialMember ≠ some .destructor ∧ ¬ LooksLikeCtor cb name f q
  /-- An assignment operator has `this`, and does not look like a constructor. -/
  assign : f.specialMember = some .assignmentOperator → (∃ t, .typed "this" t ∈ f.inputs) ∧
    ∀ q, ClassOf f q → ¬ LooksLikeCtor cb name f q
  /-- A move constructor takes an rvalue reference to what `this` points to. -/
  move : f.specialMember = some .moveConstructor → ∃ mu mu' p n args l,
    f.inputs = .typed "this" (.ptr mu p) ::
      .typed n (.path ["__bindgen_marker_RValueReference"] (.ptr mu' p :: args)) :: l
  /-- Constructors and destructors return nothing. -/
  noResult : MakesOrDestroys f → f.output = none

/-- An item of a module, other than a function. -/
structure ItemWell (cb : Callbacks) (ns : List String) (i : BindgenItem) : Prop where
  names : ∀ id, ItemNamed i id → (∀ items, i ≠ .foreignMod items) → GoodName id ∧
    ∀ c, cb.originalName ⟨ns, id⟩ = some (some c) → Spelled c
  /-- The types of fields are ones bindgen writes, and neither a class nor a base of one is `Pin`. -/
  fields : ∀ id fs gs, i = .struct id fs gs → ¬ IsPin ⟨ns, id⟩ ∧ (∀ f ∈ fs, GoodTy f.2.2) ∧
    ∀ f ∈ fs, ∀ q v, IsBaseField f q v → ¬ IsPin q
  aliases : ∀ id ty gs, i = .type id ty gs → GoodTy ty ∧ NoRef ty ∧ PinFit ty
  renames : ∀ t segs a b, i = .use t → UseIs t ("self" :: "super" :: segs) (.rename a b) →
    GoodTy (.path (segs ++ [a]) []) ∧ PinFit (.path (segs ++ [a]) [])

/-- What bindgen wrote and reported, and the configuration. -/
structure WellNamed (hash : Config → Nat) (cfg : Config) (cb : Callbacks) (root : List BindgenItem) : Prop where
  /-- It was said what to generate. -/
  allow : ∀ n, cfg.isOnAllowlist hash n ≠ none
  spaces : ∀ ns l, Module [] root ns l → ∀ x ∈ ns, GoodName x
  items : ∀ ns l, Module [] root ns l → ∀ i ∈ l, ItemWell cb ns i
  fns : ∀ ns l, Module [] root ns l → ∀ m, .foreignMod m ∈ l → ∀ b, .fn b ∈ m → ∀ f, FnFound cb ns b f →
    FnWell cb ⟨⟨ns, f.ident⟩, f.originalName⟩ { f with selfTy := lastReceiver (classEvidence ns l) f.ident }
  /-- The names in `concrete!` and for subclasses. -/
  concretes : ∀ e ∈ cfg.concretes, GoodName e.2 ∧ e.2 ≠ "Pin"
  subs : ∀ sc ∈ cfg.subclasses, GoodName sc.subclass ∧ ∀ s ∈ (QName.ofCppName sc.superclass).segs, isIdentText s = true

/-! ### Names -/

theorem isIdent_chars {s : String} (h : isIdentText s = true) : s ≠ "" ∧ ∀ c ∈ s.toList, c ≠ ':' := by
  unfold isIdentText at h
  split at h
  · cases h
  · rename_i a r hs
    rw [Bool.and_eq_true] at h
    constructor
    · rintro rfl
      cases hs
    · rw [hs]
      intro c hc e
      subst e
      rcases List.mem_cons.1 hc with e | hc
      · rw [← e] at h
        exact absurd h.1 (by decide)
      · exact absurd (List.all_eq_true.1 h.2 _ hc) (by decide)

theorem good_wf {q : QName} (h : GoodQ q) : q.wf = true := by
  rw [QName.wf, List.all_eq_true]
  intro s hs
  obtain ⟨h1, h2⟩ := isIdent_chars (h s hs).1
  simp only [Bool.and_eq_true, decide_eq_true_eq, noColon_iff]
  exact ⟨h2, h1⟩

theorem colons_none {l : List Char} (h : ∀ c ∈ l, c ≠ ':') : splitLast "::".toList l = none :=
  splitLast_none _ _ fun hi => h ':' (hi.subset (by decide)) rfl

theorem finalSegment_ident {s : String} (h : isIdentText s = true) : finalSegment s = none := by
  rw [finalSegment, colons_none (isIdent_chars h).2]
  rfl

/-- The last part of a C++ name. -/
theorem finalSegment_spelled {q : QName} (h : GoodQ q) {x : String} (hx : finalSegment (joinCC q.segs) = some x) :
    x = q.name := by
  have hn := (isIdent_chars (h q.name (by simp [QName.segs])).1).2
  by_cases hns : q.ns = []
  · rw [QName.segs, hns, List.nil_append] at hx
    rw [joinCC, finalSegment_ident (h q.name (by simp [QName.segs])).1] at hx
    cases hx
  · rw [finalSegment, QName.segs, joinCC_push hns, String.toList_append, String.toList_append, List.append_assoc,
      splitLast_append _ _ _ (colons_none hn)] at hx
    · have := Option.some.inj hx
      rw [← this]
      exact String.ofList_toList
    · intro n h0 hle hp
      have : n = 1 ∨ n = 2 := by
        have : "::".toList.length = 2 := by decide
        omega
      have hc : "::".toList = [':', ':'] := by decide
      rw [hc] at hp
      rcases this with rfl | rfl
      · simp only [List.cons_append, List.nil_append, List.drop_succ_cons, List.drop_zero] at hp
        cases hq : q.name.toList with
        | nil => rw [hq] at hp; simp at hp
        | cons c r =>
          rw [hq] at hp
          simp at hp
          exact hn c (by rw [hq]; simp) hp.symm
      · simp only [List.cons_append, List.nil_append, List.drop_succ_cons, List.drop_zero] at hp
        cases hq : q.name.toList with
        | nil => rw [hq] at hp; simp at hp
        | cons c r =>
          rw [hq] at hp
          simp at hp
          exact hn c (by rw [hq]; simp) hp.1.symm
    · decide

theorem Spelled.facts {c : String} (h : Spelled c) : leadsWell c.toList = true ∧ c ≠ "Pin" ∧
    (∀ s ∈ (QName.ofCppName c).segs, isIdentText s = true) ∧ ∀ x, finalSegment c = some x → GoodName x ∧ x ≠ "Pin" := by
  obtain ⟨q, hg, hp, rfl⟩ := h
  refine ⟨leadsWell_joinCC (segs_ne_nil q) fun s hs => (hg s hs).2, fun e => ?_, ?_, fun x hx => ?_⟩
  · exact hp (by rw [joinCC_pin e]; simp)
  · rw [ofCppName_joinCC q (good_wf hg)]
    exact fun s hs => (hg s hs).1
  · rw [finalSegment_spelled hg hx]
    have hm : q.name ∈ q.segs := by simp [QName.segs]
    exact ⟨hg _ hm, fun e => hp (e ▸ hm)⟩

/-! ### The items -/

/-- The names of an item which is not a function. -/
def NameWell (n : ApiName) : Prop := GoodQ n.name ∧ ∀ c, n.cppName = some c → Spelled c

/-- What is wanted of each item the parser finds. -/
def ApiWell (cb : Callbacks) : NullApi → Prop
  | .forwardDeclaration n _ | .const n _ => NameWell n
  | .enum n _ => NameWell n ∧ cb.originalName n.name = some n.cppName
  | .typedef n i _ _ => NameWell n ∧ GoodTy i.ty ∧ NoRef i.ty ∧ PinFit i.ty
  | .struct n d _ => NameWell n ∧ cb.originalName n.name = some n.cppName ∧ ¬ IsPin n.name ∧
      (∀ f ∈ d.fields, GoodTy f.2.2) ∧ ∀ f ∈ d.fields, ∀ q v, IsBaseField f q v → ¬ IsPin q
  | .concreteType n r _ => n.cppName = none ∧ GoodQ n.name ∧ ¬ IsPin n.name ∧ r = none
  | .subclass n sup => n.cppName = none ∧ GoodQ n.name ∧ ∀ s ∈ sup.segs, isIdentText s = true
  | .function n f _ => (∀ x ∈ n.name.ns, GoodName x) ∧ FnWell cb n f ∧ f.synthesizedThisType = none ∧ f.addToTrait = none ∧
      f.syntheticCpp = none ∧ f.provenance = .bindgen
  | .rustSubclassFn .. | .subclassTraitItem .. | .opaqueTypedef .. => False
  | x => x.nameInfo.cppName = none

theorem item_well {cfg : Config} {cb : Callbacks} {ns : List String} {l : List BindgenItem} {i : BindgenItem} {o : ItemOut}
    {b : NullApi} (hns : ∀ x ∈ ns, GoodName x) (hw : ItemWell cb ns i)
    (hfn : ∀ m, i = .foreignMod m → ∀ b, .fn b ∈ m → ∀ f, FnFound cb ns b f →
      FnWell cb ⟨⟨ns, f.ident⟩, f.originalName⟩ { f with selfTy := lastReceiver (classEvidence ns l) f.ident })
    (hmod : ∀ id items, i ≠ .mod id items) (h : ItemFate cfg cb ns i o) (hf : FromItem ns l o b) : ApiWell cb b := by
  have hq : ∀ {id : Ident}, GoodName id → GoodQ ⟨ns, id⟩ := by
    intro id hid s hs
    simp only [QName.segs, List.mem_append, List.mem_singleton] at hs
    rcases hs with hs | rfl
    · exact hns s hs
    · exact hid
  have hname : ∀ {id : Ident} {o : Option String}, ItemNamed i id → (∀ items, i ≠ .foreignMod items) →
      cb.originalName ⟨ns, id⟩ = some o → NameWell ⟨⟨ns, id⟩, o⟩ := by
    intro id o hi hne ho
    obtain ⟨h1, h2⟩ := hw.names id hi hne
    refine ⟨hq h1, fun c hc => h2 c ?_⟩
    dsimp only at hc
    rw [ho, hc]
  have hm : ∀ {id : Ident} {e : Err}, ApiWell cb (markerFor ns id e) := fun {_ _} => rfl
  cases h <;> rcases hf with hf | hf | hf | ⟨f, hf, rfl⟩ <;> first | (cases hf; done) | skip
  · rw [List.mem_singleton.1 hf]; exact hm
  · rw [List.mem_singleton.1 hf]
    exact hname .struct (fun _ h => by cases h) (by assumption)
  · rw [List.mem_singleton.1 hf]
    exact ⟨hname .struct (fun _ h => by cases h) (by assumption), by assumption, hw.fields _ _ _ rfl⟩
  · rw [List.mem_singleton.1 hf]; exact hm
  · rw [List.mem_singleton.1 hf]
    exact ⟨hname .enum (fun _ h => by cases h) (by assumption), by assumption⟩
  · rename_i hff
    obtain ⟨id, -, rfl⟩ := (foreign_found hff).2.2.2 b hf
    exact hm
  · rename_i hff
    obtain ⟨b, hb, hfound⟩ := (foreign_found hff).2.2.1 f hf
    refine ⟨hns, hfn _ rfl b hb f hfound, ?_⟩
    obtain ⟨-, -, -, -, -, -, -, -, -, h1, -, h2, h3, h4⟩ := hfound
    exact ⟨h2, h3, h4, h1⟩
  · exact absurd rfl (hmod _ _)
  · rw [List.mem_singleton.1 hf]; exact hm
  · rename_i hu _ _ _ ho
    rw [List.mem_singleton.1 hf]
    obtain ⟨h1, h2⟩ := hw.renames _ _ _ _ rfl hu
    exact ⟨hname (.use hu) (fun _ h => by cases h) ho, h1, .path (by simp), h2⟩
  · rw [List.mem_singleton.1 hf]
    exact hname .const (fun _ h => by cases h) (by assumption)
  · rename_i ho
    rw [List.mem_singleton.1 hf]
    exact ⟨hname .type (fun _ h => by cases h) ho, hw.aliases _ _ _ rfl⟩

theorem configured_well {hash : Config → Nat} {sigOf : RustSig → RustFnSig} {cfg : Config} {cb : Callbacks}
    {root : List BindgenItem} (w : WellNamed hash cfg cb root) {b : NullApi} (h : Configured hash sigOf cfg b) :
    ApiWell cb b := by
  have hq : ∀ {id : Ident}, GoodName id → GoodQ ⟨[], id⟩ := by
    intro id hid s hs
    simp only [QName.segs, List.nil_append, List.mem_singleton] at hs
    subst hs
    exact hid
  rcases h with ⟨-, rfl⟩ | ⟨sc, hsc, rfl⟩ | ⟨f, -, deps, -, rfl⟩ | ⟨p, last, -, rfl⟩ | ⟨e, he, rfl⟩
  · rfl
  · exact ⟨rfl, hq (w.subs sc hsc).1, (w.subs sc hsc).2⟩
  · rfl
  · rfl
  · exact ⟨rfl, hq (w.concretes e he).1, fun h => (w.concretes e he).2 (isPin_name h), rfl⟩

theorem parsed_well {hash : Config → Nat} {sigOf : RustSig → RustFnSig} {cfg : Config} {cb : Callbacks}
    {items root : List BindgenItem} (w : WellNamed hash cfg cb root) (hroot : RootIs items root)
    {v : ApiVec Unit Unit Unit} (h : parseBindgenItems hash sigOf cfg cb items = some (.ok v)) :
    ∀ a ∈ v.apis, ApiWell cb a := by
  intro a ha
  rcases parsed_from hash sigOf cfg cb items root v h hroot a ha with ⟨_, _, _, _, _, _, _, ha⟩ | ⟨b, hab, hb⟩
  · rw [ha]; rfl
  · rcases hab with rfl | rfl
    · rcases hb with hb | ⟨ns, l, i, o, hm, hi, hfate, hfrom, id, hid, -⟩
      · exact configured_well w hb
      · refine item_well (w.spaces ns l hm) (w.items ns l hm i hi) ?_ ?_ hfate hfrom
        · rintro m rfl b hb f hf
          exact w.fns ns l hm m hi b hb f hf
        · rintro id' items' rfl
          cases hid
    · rfl

/-- **C71 (what the parser finds)**: from a well-named header the parser makes items which no later pass panics over. -/
theorem header_found {hash : Config → Nat} {sigOf : RustSig → RustFnSig} {cfg : Config} {cb : Callbacks}
    {items root : List BindgenItem} (w : WellNamed hash cfg cb root) (hroot : RootIs items root)
    {v : ApiVec Unit Unit Unit} (h : parseBindgenItems hash sigOf cfg cb items = some (.ok v)) :
    FoundItems hash cfg v.apis := by
  have hall := parsed_well w hroot h
  have hnames : ∀ x ∈ v.apis, x.name.ns = [] → ∀ c, x.nameInfo.cppName = some c → leadsWell c.toList = true ∧ c ≠ "Pin" := by
    intro x hx _ c hc
    have hx := hall x hx
    have hsp : NameWell x.nameInfo → leadsWell c.toList = true ∧ c ≠ "Pin" := fun hn =>
      ⟨(hn.2 c hc).facts.1, (hn.2 c hc).facts.2.1⟩
    cases x <;> first
      | exact hsp hx
      | exact hsp hx.1
      | exact absurd (hx.symm.trans hc) (fun h => by cases h)
      | exact absurd (hx.1.symm.trans hc) (fun h => by cases h)
      | exact ⟨(hx.2.1.cpp c hc).1.2, (hx.2.1.cpp c hc).2⟩
      | exact absurd hx id
  have hnest : ∀ q x, NestedAs v.apis q x → OwnName cb q x ∧ GoodName x ∧ x ≠ "Pin" := by
    rintro q x ⟨n, rfl, hm, hx⟩
    have hn : NameWell n ∧ cb.originalName n.name = some n.cppName := by
      rcases hm with ⟨d, a, hm⟩ | ⟨i, hm⟩
      · exact ⟨(hall _ hm).1, (hall _ hm).2.1⟩
      · exact hall _ hm
    obtain ⟨⟨h1, h2⟩, h3⟩ := hn
    cases hc : n.cppName with
    | none =>
      rw [ApiName.effectiveCppName, hc] at hx
      rw [Option.getD_none, finalSegment_ident (h1 _ (by simp [QName.segs])).1] at hx
      cases hx
    | some c =>
      rw [ApiName.effectiveCppName, hc, Option.getD_some] at hx
      exact ⟨.nested (by rw [h3, hc]) hx, (h2 c hc).facts.2.2.2 x hx⟩
  refine ⟨w.allow, hnames, ?_, ?_, ?_, fun q x hx => (hnest q x hx).2, ?_, ?_, ?_, ?_⟩
  · intro x hx hf s hs
    have hx := hall x hx
    have hem : ∀ n : ApiName, NameWell n → s ∈ n.name.ns ++ [n.name.name] ++
        (n.cppName.map fun c => (QName.ofCppName c).ns ++ [(QName.ofCppName c).name]).getD [] → isIdentText s = true := by
      intro n hn hs
      rcases List.mem_append.1 hs with hs | hs
      · exact (hn.1 s hs).1
      · cases hc : n.cppName with
        | none => rw [hc] at hs; cases hs
        | some c =>
          rw [hc] at hs
          exact (hn.2 c hc).facts.2.2.1 s hs
    cases x <;> first
      | exact hem _ hx hs
      | exact hem _ hx.1 hs
      | exact absurd hx id
      | (cases hs; done)
      | (cases hf; done)
      | skip
    rcases List.mem_append.1 hs with hs | hs
    · exact (hx.2.1 s hs).1
    · exact hx.2.2 s hs
  · intro n i o u hx
    obtain ⟨h1, h2⟩ := hall _ hx
    exact ⟨h1.1, h2⟩
  · intro n r c hx
    obtain ⟨-, h1, h2, rfl⟩ := hall _ hx
    exact ⟨⟨h1, h2⟩, fun t ht => by cases ht⟩
  · intro n sup hx
    exact (hall _ hx).2.1
  · intro x hx
    have hx := hall x hx
    cases x <;> first | trivial | exact absurd hx id
  · intro n f u hx nested hnested
    obtain ⟨hns, hf, h1, h2, h3, h4⟩ := hall _ hx
    have hlike : ∀ q, ¬ LooksLikeCtor cb n f q → ∀ ideal, idealRustName f.ident n.cppName = .done ideal →
        constructorWithSuffix ideal ((AMap.get? nested q).getD q.name) = none := by
      intro q hno ideal hi
      by_contra hne
      refine hno ⟨_, ideal, ?_, hi, hne⟩
      cases hg : AMap.get? nested q with
      | none => exact .name
      | some x => exact (hnest q x (hnested q x hg)).1
    refine ⟨⟨hns, hf.ident, fun c hc => (hf.cpp c hc).1.1, hf.inputs, hf.output, hf.self, ?_, ?_, ?_, ?_, ?_⟩,
      ⟨hf.first, ?_, hf.noResult, hnames _ hx, ?_, ?_⟩⟩
    · intro q hq; rw [h1] at hq; cases hq
    · intro q m hq; rw [h2] at hq; cases hq
    · intro q hq; rw [h2] at hq; rcases hq with hq | hq <;> cases hq
    · intro q hq hno
      obtain ⟨k1, k2, k3⟩ := hf.static q hq hno
      exact ⟨k1, k2, hlike q k3⟩
    · intro hs
      exact ⟨h1, hf.move hs⟩
    · intro hs
      exact ⟨(hf.assign hs).1, fun q hq => hlike q ((hf.assign hs).2 q hq)⟩
    · intro b k hb; rw [h3] at hb; cases hb
    · intro sub tr impl hp; rw [h4] at hp; cases hp
  · intro n d u hx
    obtain ⟨h1, -, h2⟩ := hall _ hx
    exact ⟨h1.1, h2⟩

/-! ### The whole conversion -/

variable {fuel : Nat} {hash : Config → Nat} {sigOf : RustSig → RustFnSig} {policy : UnsafePolicy} {cfg : Config} {force : Bool}
  {cb : Callbacks} {items root : List BindgenItem} {o : CppOptions} {cxxgenHeader inclusions : String}
  {includes : List String} {r : Nat} {found : List NullApi}

theorem header_parses (hr : cb.rootMod = some r) (hc : configApis hash sigOf cfg = some (.ok found))
    (hroot : RootIs items root) (hsafe : ∀ ns l, Module [] root ns l → ∀ i ∈ l, ItemSafe i) :
    parseBindgenItems hash sigOf cfg cb items ≠ none := fun h =>
  (parse_panics_iff hash sigOf cfg cb items r hr found hc).1 h ⟨root, hroot, hsafe⟩

/-- **C71 (headers)**: once bindgen has reported its root module and the signatures in the configuration can be read, the
conversion of a well-named header in which no class holds itself panics only over overrides of methods which take owners,
or where overrides are all that needs C++. -/
theorem convert_header_panics (hr : cb.rootMod = some r) (hc : configApis hash sigOf cfg = some (.ok found))
    (hroot : RootIs items root) (hsafe : ∀ ns l, Module [] root ns l → ∀ i ∈ l, ItemSafe i)
    (w : WellNamed hash cfg cb root)
    (hself : ∀ apis tds v, parseBindgenItems hash sigOf cfg cb items = some (.ok apis) →
      convertTypedefTargets fuel cfg cb.attrs apis = .done tds →
      analyzePodApis fuel hash cfg cb.attrs tds = .done (.ok v) → NoSelfHolding v.apis)
    (h : convertAll fuel hash sigOf policy cfg force cb (some items) o cxxgenHeader inclusions includes = .panic) :
    ∃ out, convertApisFrom fuel hash sigOf policy cfg force cb (some items) = .done (.ok out) ∧
      (OverridesOwner out.apis ∨
        ((∃ n sub d, .rustSubclassFn n sub d ∈ out.apis) ∧
          ∀ a ∈ out.apis, NeedsCpp a → ∃ n sub d, a = .rustSubclassFn n sub d)) :=
  convertAll_panics (header_parses hr hc hroot hsafe) (fun _ hp => header_found w hroot hp) hself h

/-- **C71 (headers, no Rust subclasses)**: without Rust subclasses the conversion of such a header never panics. -/
theorem convert_header_safe (hsub : cfg.subclasses = []) (hr : cb.rootMod = some r)
    (hc : configApis hash sigOf cfg = some (.ok found)) (hroot : RootIs items root)
    (hsafe : ∀ ns l, Module [] root ns l → ∀ i ∈ l, ItemSafe i) (w : WellNamed hash cfg cb root)
    (hself : ∀ apis tds v, parseBindgenItems hash sigOf cfg cb items = some (.ok apis) →
      convertTypedefTargets fuel cfg cb.attrs apis = .done tds →
      analyzePodApis fuel hash cfg cb.attrs tds = .done (.ok v) → NoSelfHolding v.apis) :
    convertAll fuel hash sigOf policy cfg force cb (some items) o cxxgenHeader inclusions includes ≠ .panic :=
  convertAll_safe hsub (header_parses hr hc hroot hsafe) (fun _ hp => header_found w hroot hp) hself

end Verif
