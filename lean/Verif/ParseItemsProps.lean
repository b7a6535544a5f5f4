import Verif.ParseBindgenProps

/-!
# C50, C04, C59: the whole parser

What the configuration asks for, the items of bindgen's `root` module and the external C++ types together make up the
first list of APIs. The specification speaks of the modules of the tree (`Module`) and the items in them.
-/

set_option autoImplicit false

namespace Verif

/-! ## Specification -/

/-- The modules in the tree of the module for `ns` whose items are `l`: itself and all nested ones, each with its
namespace and its items. -/
inductive Module (ns : List String) (l : List BindgenItem) : List String → List BindgenItem → Prop
  | self : Module ns l ns l
  | nested {ns' l' id items} : Module ns l ns' l' → .mod id items ∈ l' → Module ns l (ns' ++ [id]) items

/-- The methods which the `impl` blocks of a module tell of, in order, with their classes. -/
def classEvidence (ns : List String) (l : List BindgenItem) : List (Ident × QName) := l.flatMap fun
  | .impl (.path segs _) items => match segs.getLast? with
    | some id => implEvidence ⟨ns, id⟩ items
    | none => []
  | _ => []

/-- An API comes from what one item of a module left. -/
def FromItem (ns : List String) (l : List BindgenItem) (o : ItemOut) (a : NullApi) : Prop :=
  a ∈ o.now ∨ a ∈ o.errors ∨ a ∈ o.statics ∨ ∃ f ∈ o.fns, a = fnApi ns (classEvidence ns l) f

/-- What a user asked for by name: `generate!`, `generate_pod!` and `pod!`. -/
def Directed (cfg : Config) (d : String) : Prop :=
  (∃ l, cfg.allowlist = .specific l ∧ .item d ∈ l) ∨ d ∈ cfg.podRequests

/-- The external C++ type of a name, if the user declared one. -/
def ExternIs (cfg : Config) (q : QName) (a : NullApi) : Prop :=
  ∃ pre name req post, cfg.externs = pre ++ (name, req) :: post ∧ QName.ofCppName name = q ∧
    (∀ e ∈ post, QName.ofCppName e.1 ≠ q) ∧
    a = .externCppType ⟨q, none⟩ (decide (q.toCppName ∈ cfg.podRequests)) req.isOpaque

/-- The APIs which the configuration itself asks for. -/
def Configured (hash : Config → Nat) (sigOf : RustSig → RustFnSig) (cfg : Config) (a : NullApi) : Prop :=
  (cfg.excludeUtilities = false ∧ a = .stringConstructor ⟨⟨[], cfg.makestringName hash⟩, none⟩) ∨
  (∃ sc ∈ cfg.subclasses, a = .subclass ⟨⟨[], sc.subclass⟩, none⟩ (QName.ofCppName sc.superclass)) ∨
  (∃ f ∈ cfg.externRustFuns, ∃ deps, assembleExternFunDeps (sigOf f.sig) = some (.ok deps) ∧
    a = .rustFn ⟨⟨[], f.sig.ident⟩, none⟩ deps) ∨
  (∃ p last, p ++ [last] ∈ cfg.rustTypes ∧ a = .rustType ⟨⟨[], last⟩, none⟩ (joinCC (p ++ [last]))) ∨
  (∃ e ∈ cfg.concretes, a = .concreteType ⟨⟨[], e.2⟩, none⟩ none e.1)

/-- Where the bindings are: in the first module, which must be called `root`; modules without a body are passed over
if they have that name too. -/
inductive RootIs : List BindgenItem → List BindgenItem → Prop
  | none : RootIs [] []
  | root {items l} : RootIs (.mod "root" items :: l) items
  | decl {l items} : RootIs l items → RootIs (.modDecl "root" :: l) items
  | skip {i l items} : (∀ id, i ≠ .modDecl id) → (∀ id m, i ≠ .mod id m) → RootIs l items → RootIs (i :: l) items

/-- The names of an item. -/
inductive ItemNamed : BindgenItem → Ident → Prop
  | struct {id fs gs} : ItemNamed (.struct id fs gs) id
  | enum {id item} : ItemNamed (.enum id item) id
  | const {id ty item} : ItemNamed (.const id ty item) id
  | type {id ty gs} : ItemNamed (.type id ty gs) id
  | use {t segs a b} : UseIs t segs (.rename a b) → ItemNamed (.use t) b
  | fn {items b} : .fn b ∈ items → ItemNamed (.foreignMod items) (stripBindgenSuffix b.ident)
  | static {items id} : .static id ∈ items → ItemNamed (.foreignMod items) id

/-- The items with a name which leave no trace: tables of virtual functions, types which are something else in Rust,
blocked types, constants of an enum which cannot be used, and bindgen's own name for `char16_t`. -/
inductive LeftOut (cfg : Config) (ns : List String) : BindgenItem → Prop
  | vtable (stem) {fs gs} : LeftOut cfg ns (.struct (stem ++ "__bindgen_vtable") fs gs)
  | mapped {id fs gs} : MappedElsewhere cfg ⟨ns, id⟩ → LeftOut cfg ns (.struct id fs gs)
  | structBlocked {id fs gs} : QName.toCppName ⟨ns, id⟩ ∈ cfg.blocklist → LeftOut cfg ns (.struct id fs gs)
  | enumBlocked {id item} : QName.toCppName ⟨ns, id⟩ ∈ cfg.blocklist → LeftOut cfg ns (.enum id item)
  | const {id segs last args item e} : validateIdentOkForCxx last = .bad e →
      LeftOut cfg ns (.const id (.path (segs ++ [last]) args) item)
  | char16 {t segs a} : UseIs t segs (.rename a "bindgen_cchar16_t") → LeftOut cfg ns (.use t)

/-! ## The tree of modules -/

theorem receivers_eq {cfg : Config} {cb : Callbacks} {ns : List String} {l : List BindgenItem} {os : List ItemOut}
    (h : ItemsFate cfg cb ns l os) : os.flatMap (·.receivers) = classEvidence ns l := by
  induction l generalizing os with
  | nil => cases h; rfl
  | cons i l ih =>
    cases h with
    | cons hi hl =>
      simp only [List.flatMap_cons, ih hl, classEvidence]
      congr 1
      cases hi <;> first
        | rfl
        | (simp; done)
        | (rename_i ht; cases ‹Ty› <;> first | rfl | exact absurd rfl (ht _ _))

theorem mem_moduleApis {cfg : Config} {cb : Callbacks} {ns : List String} {l : List BindgenItem} {os : List ItemOut}
    (h : ItemsFate cfg cb ns l os) (a : NullApi) :
    a ∈ moduleApis ns os ↔ ∃ o ∈ os, FromItem ns l o a := by
  unfold moduleApis FromItem
  rw [receivers_eq h]
  simp only [List.mem_append, List.mem_flatMap, List.mem_map]
  constructor
  · rintro (((⟨o, ho, h⟩ | ⟨o, ho, h⟩) | ⟨o, ho, h⟩) | ⟨f, ⟨o, ho, h⟩, e⟩)
    · exact ⟨o, ho, .inl h⟩
    · exact ⟨o, ho, .inr (.inl h)⟩
    · exact ⟨o, ho, .inr (.inr (.inl h))⟩
    · exact ⟨o, ho, .inr (.inr (.inr ⟨f, h, e.symm⟩))⟩
  · rintro ⟨o, ho, h | h | h | ⟨f, h, e⟩⟩
    · exact .inl (.inl (.inl ⟨o, ho, h⟩))
    · exact .inl (.inl (.inr ⟨o, ho, h⟩))
    · exact .inl (.inr ⟨o, ho, h⟩)
    · exact .inr ⟨f, ⟨o, ho, h⟩, e.symm⟩

theorem ItemsFate.fate_of_mem {cfg : Config} {cb : Callbacks} {ns : List String} {l : List BindgenItem}
    {os : List ItemOut} (h : ItemsFate cfg cb ns l os) {i : BindgenItem} (hi : i ∈ l) :
    ∃ o ∈ os, ItemFate cfg cb ns i o := by
  induction l generalizing os with
  | nil => cases hi
  | cons j l ih =>
    cases h with
    | cons hj hl =>
      rcases List.mem_cons.1 hi with rfl | hi
      · exact ⟨_, by simp, hj⟩
      · obtain ⟨o, ho, hf⟩ := ih hl hi
        exact ⟨o, by simp [ho], hf⟩

theorem ItemsFate.item_of_mem {cfg : Config} {cb : Callbacks} {ns : List String} {l : List BindgenItem}
    {os : List ItemOut} (h : ItemsFate cfg cb ns l os) {o : ItemOut} (ho : o ∈ os) :
    ∃ i ∈ l, ItemFate cfg cb ns i o := by
  induction l generalizing os with
  | nil => cases h; cases ho
  | cons j l ih =>
    cases h with
    | cons hj hl =>
      rcases List.mem_cons.1 ho with rfl | ho
      · exact ⟨_, by simp, hj⟩
      · obtain ⟨i, hi, hf⟩ := ih hl ho
        exact ⟨i, by simp [hi], hf⟩

theorem Module.fate {cfg : Config} {cb : Callbacks} {ns ns' : List String} {l l' : List BindgenItem}
    {os : List ItemOut} (hm : Module ns l ns' l') (h : ItemsFate cfg cb ns l os) :
    ∃ os', ItemsFate cfg cb ns' l' os' ∧ ∀ a ∈ moduleApis ns' os', a ∈ moduleApis ns os := by
  induction hm with
  | self => exact ⟨os, h, fun a ha => ha⟩
  | nested _ hi ih =>
    obtain ⟨os', ho, hs⟩ := ih
    obtain ⟨o, hmem, hf⟩ := ho.fate_of_mem hi
    cases hf with
    | mod hin => exact ⟨_, hin, fun a ha => hs a ((mem_moduleApis ho a).2 ⟨_, hmem, .inl ha⟩)⟩

theorem Module.trans {ns ns' ns'' : List String} {l l' l'' : List BindgenItem} (h : Module ns l ns' l')
    (h' : Module ns' l' ns'' l'') : Module ns l ns'' l'' := by
  induction h' with
  | self => exact h
  | nested _ hi ih => exact .nested ih hi

mutual
theorem item_sources {cfg : Config} {cb : Callbacks} {ns : List String} (l0 : List BindgenItem)
    (i : BindgenItem) (o : ItemOut) (a : NullApi) (hi : i ∈ l0)
    (h : ItemFate cfg cb ns i o) (ha : FromItem ns l0 o a) :
    ∃ ns' l' j o', Module ns l0 ns' l' ∧ j ∈ l' ∧ (∀ id items, j ≠ .mod id items) ∧ ItemFate cfg cb ns' j o' ∧
      FromItem ns' l' o' a := by
  match i with
  | .mod id items =>
    have ih := module_sources (cfg := cfg) (cb := cb) (ns ++ [id]) items items
    cases h with
    | @mod _ _ _ outs hin =>
      have ha : a ∈ moduleApis (ns ++ [id]) outs := by
        rcases ha with ha | ha | ha | ⟨f, hf, -⟩
        · exact ha
        · cases ha
        · cases ha
        · cases hf
      obtain ⟨o', ho', hfrom⟩ := (mem_moduleApis hin a).1 ha
      obtain ⟨ns', l', j, o'', hm, hj, hne, hf, hfr⟩ := ih outs a (fun _ h => h) hin ⟨o', ho', hfrom⟩
      exact ⟨ns', l', j, o'', (Module.nested .self hi).trans hm, hj, hne, hf, hfr⟩
  | .struct .. | .enum .. | .use .. | .const .. | .type .. | .modDecl .. | .other | .foreignMod .. | .impl .. =>
    exact ⟨ns, l0, _, o, .self, hi, nofun, h, ha⟩
theorem module_sources {cfg : Config} {cb : Callbacks} (ns : List String) (l0 l : List BindgenItem)
    (os : List ItemOut) (a : NullApi) (hsub : ∀ i ∈ l, i ∈ l0)
    (h : ItemsFate cfg cb ns l os) (ha : ∃ o ∈ os, FromItem ns l0 o a) :
    ∃ ns' l' j o', Module ns l0 ns' l' ∧ j ∈ l' ∧ (∀ id items, j ≠ .mod id items) ∧ ItemFate cfg cb ns' j o' ∧
      FromItem ns' l' o' a := by
  match l with
  | [] =>
    cases h
    obtain ⟨o, ho, -⟩ := ha
    cases ho
  | i :: l =>
    have ih1 := fun o => item_sources (cfg := cfg) (cb := cb) (ns := ns) l0 i o a (hsub i (by simp))
    have ih2 := fun os => module_sources (cfg := cfg) (cb := cb) ns l0 l os a (fun j hj => hsub j (by simp [hj]))
    cases h with
    | cons hi hl =>
      obtain ⟨o, ho, hf⟩ := ha
      rcases List.mem_cons.1 ho with rfl | ho
      · exact ih1 _ hi hf
      · exact ih2 _ hl ⟨o, ho, hf⟩
end

/-! ## The configuration and the external types -/

theorem Config.directed_iff (cfg : Config) (d : String) : d ∈ cfg.mustGenerateList ↔ Directed cfg d := by
  unfold Config.mustGenerateList Directed
  cases h : cfg.allowlist with
  | specific l =>
    simp only [List.mem_append, List.mem_filterMap, Allowlist.specific.injEq]
    constructor
    · rintro (⟨e, he, hd⟩ | hd)
      · cases e with
        | item i => cases hd; exact .inl ⟨l, rfl, he⟩
        | nspace _ => cases hd
      · exact .inr hd
    · rintro (⟨l', rfl, he⟩ | hd)
      · exact .inl ⟨_, he, rfl⟩
      · exact .inr hd
  | _ => simp

theorem externReplacements_spec (cfg : Config) :
    AMap.WF (externReplacements cfg) ∧
    (∀ q a, (externReplacements cfg).get? q = some a ↔ ExternIs cfg q a) ∧
    (∀ q a, (externReplacements cfg).get? q = some a → a.name = q) := by
  suffices H : ∀ l : List (String × ExternCppTypeReq),
      let m := l.foldl (fun (m : AMap QName NullApi) e =>
        let q := QName.ofCppName e.1
        m.insert q (.externCppType (ApiName.ofQName q) (decide (q.toCppName ∈ cfg.podRequests)) e.2.isOpaque)) []
      AMap.WF m ∧ (∀ q a, m.get? q = some a ↔ ∃ pre name req post, l = pre ++ (name, req) :: post ∧
        QName.ofCppName name = q ∧ (∀ e ∈ post, QName.ofCppName e.1 ≠ q) ∧
        a = .externCppType ⟨q, none⟩ (decide (q.toCppName ∈ cfg.podRequests)) req.isOpaque) by
    obtain ⟨h1, h2⟩ := H cfg.externs
    refine ⟨h1, h2, fun q a h => ?_⟩
    obtain ⟨_, _, _, _, _, _, _, rfl⟩ := (h2 q a).1 h
    rfl
  intro l
  rw [← List.reverse_reverse l]
  generalize l.reverse = r
  induction r with
  | nil => exact ⟨AMap.nil_wf, by simp⟩
  | cons e r ih =>
    obtain ⟨ih1, ih2⟩ := ih
    obtain ⟨name, req⟩ := e
    simp only [List.reverse_cons, List.foldl_append, List.foldl_cons, List.foldl_nil]
    refine ⟨AMap.insert_wf ih1 _ _, fun q a => ?_⟩
    rw [AMap.get?_insert]
    split
    · rename_i hq
      constructor
      · intro h
        cases h
        exact ⟨r.reverse, name, req, [], rfl, hq, by simp, by rw [hq]; rfl⟩
      · rintro ⟨pre, name', req', post, he, hq', hpost, rfl⟩
        rcases List.eq_nil_or_concat post with rfl | ⟨p, x, rfl⟩
        · have := List.append_inj' he rfl
          cases this.2
          rw [hq]
          rfl
        · exfalso
          rw [List.concat_eq_append, ← List.cons_append, ← List.append_assoc] at he
          have := List.append_inj' he rfl
          cases this.2
          exact hpost (name, req) (by simp) hq
    · rename_i hq
      rw [ih2]
      constructor
      · rintro ⟨pre, name', req', post, he, hq', hpost, rfl⟩
        refine ⟨pre, name', req', post ++ [(name, req)], by rw [he]; simp, hq', ?_, rfl⟩
        intro e he'
        rcases List.mem_append.1 he' with he' | he'
        · exact hpost e he'
        · rw [List.mem_singleton.1 he']
          exact hq
      · rintro ⟨pre, name', req', post, he, hq', hpost, rfl⟩
        rcases List.eq_nil_or_concat post with rfl | ⟨p, x, rfl⟩
        · have := List.append_inj' he rfl
          cases this.2
          exact absurd hq' hq
        · rw [List.concat_eq_append, ← List.cons_append, ← List.append_assoc] at he
          have := List.append_inj' he rfl
          exact ⟨pre, name', req', p, this.1, hq', fun e he' => hpost e (by simp [he']), rfl⟩

theorem replaceExtern_spec (cfg : Config) (v : ApiVec Unit Unit Unit) (hv : v.Inv) :
    (replaceExternCppTypes cfg v).Inv ∧
    ∀ a, a ∈ (replaceExternCppTypes cfg v).apis ↔
      (a ∈ v.apis ∧ ∀ x, ¬ ExternIs cfg a.name x) ∨ ExternIs cfg a.name a := by
  obtain ⟨hwf, hget, hname⟩ := externReplacements_spec cfg
  have hr := ApiVec.retain_inv hv fun a => ((externReplacements cfg).get? a.name).isNone
  refine ⟨ApiVec.extend_inv hr _, fun a => ?_⟩
  unfold replaceExternCppTypes
  dsimp only
  have hkeys : (((externReplacements cfg).map (·.2)).map (·.name)) = (externReplacements cfg).keys := by
    rw [List.map_map]
    refine List.map_congr_left ?_
    intro e he
    exact hname e.1 e.2 (AMap.mem_get? hwf he)
  rw [extend_fresh_apis _ hr]
  · simp only [List.mem_append, ApiVec.retain, List.mem_filter, List.mem_map]
    refine or_congr (and_congr_right fun _ => ?_) ?_
    · cases h : (externReplacements cfg).get? a.name with
      | none =>
        refine iff_of_true rfl fun x hx => ?_
        rw [← hget, h] at hx
        cases hx
      | some x =>
        refine iff_of_false (by simp) fun hx => hx x ?_
        rw [← hget, h]
    · rw [← hget]
      constructor
      · rintro ⟨e, he, rfl⟩
        have := AMap.mem_get? hwf he
        rw [hname _ _ this]
        exact this
      · intro h
        exact ⟨_, AMap.get?_mem h, rfl⟩
  · rw [hkeys, List.nodup_append]
    refine ⟨hr.1, hwf, ?_⟩
    rintro x hx y hy rfl
    obtain ⟨b, hb, rfl⟩ := List.mem_map.1 hx
    have hb := (List.mem_filter.1 hb).2
    obtain ⟨z, hz⟩ := (AMap.mem_keys_iff _ _).1 hy
    rw [hz] at hb
    cases hb

theorem rustFunApis_iff (sigOf : RustSig → RustFnSig) (l : List RustFun) (r : List NullApi) :
    rustFunApis sigOf l = some (.ok r) ↔ All2 (fun f a => ∃ deps, assembleExternFunDeps (sigOf f.sig) = some (.ok deps) ∧
      a = .rustFn ⟨⟨[], f.sig.ident⟩, none⟩ deps) l r := by
  induction l generalizing r with
  | nil =>
    constructor
    · intro h; cases h; exact .nil
    · intro h; cases h; rfl
  | cons f l ih =>
    unfold rustFunApis
    constructor
    · intro h
      split at h
      · cases h
      · cases h
      · rename_i deps hd
        split at h
        · cases h
        · cases h
        · rename_i r' hr
          cases h
          exact .cons ⟨deps, hd, rfl⟩ ((ih r').1 hr)
    · intro h
      cases h with
      | cons h1 h2 =>
        obtain ⟨deps, hd, rfl⟩ := h1
        rw [hd]
        dsimp only
        rw [(ih _).2 h2]
        rfl

theorem mem_foldl_setInsert {α : Type} [DecidableEq α] (l acc : List α) (a : α) :
    a ∈ l.foldl setInsert acc ↔ a ∈ acc ∨ a ∈ l := by
  induction l generalizing acc with
  | nil => simp
  | cons b l ih =>
    rw [List.foldl_cons, ih]
    unfold setInsert
    split
    · rename_i hb
      constructor
      · rintro (h | h)
        · exact .inl h
        · exact .inr (by simp [h])
      · rintro (h | h)
        · exact .inl h
        · rcases List.mem_cons.1 h with rfl | h
          · exact .inl hb
          · exact .inr h
    · rw [List.mem_append, List.mem_singleton, List.mem_cons, or_assoc]

theorem mapM_some_mem {α β : Type} {f : α → Option β} {l : List α} {r : List β} (h : l.mapM f = some r) (b : β) :
    b ∈ r ↔ ∃ a ∈ l, f a = some b := by
  induction l generalizing r with
  | nil => simp at h; subst h; simp
  | cons a l ih =>
    rw [List.mapM_cons] at h
    cases ha : f a with
    | none => rw [ha] at h; cases h
    | some x =>
      cases hl : l.mapM f with
      | none => rw [ha, hl] at h; cases h
      | some xs =>
        rw [ha, hl] at h
        cases h
        simp [ih hl, ha, eq_comm]

theorem configApis_mem (hash : Config → Nat) (sigOf : RustSig → RustFnSig) (cfg : Config) (l : List NullApi)
    (h : configApis hash sigOf cfg = some (.ok l)) (a : NullApi) : a ∈ l ↔ Configured hash sigOf cfg a := by
  unfold configApis at h
  split at h
  · cases h
  · cases h
  · rename_i funs hf
    have hf := (rustFunApis_iff ..).1 hf
    rw [Option.map_eq_some_iff] at h
    obtain ⟨types, ht, h⟩ := h
    cases h
    have ht := mapM_some_mem ht
    unfold Configured
    simp only [List.mem_append]
    constructor
    · rintro ((((h | h) | h) | h) | h)
      · split at h
        · cases h
        · rename_i he
          exact .inl ⟨by simpa using he, List.mem_singleton.1 h⟩
      · obtain ⟨sc, hs, rfl⟩ := List.mem_map.1 h
        exact .inr (.inl ⟨sc, hs, rfl⟩)
      · obtain ⟨f, hfm, deps, hd, rfl⟩ := hf.right h
        exact .inr (.inr (.inl ⟨f, hfm, deps, hd, rfl⟩))
      · obtain ⟨p, hp, hpa⟩ := (ht a).1 h
        rcases List.eq_nil_or_concat p with rfl | ⟨q, last, rfl⟩
        · cases hpa
        · rw [List.concat_eq_append] at hp hpa
          simp only [rustTypeApi, List.getLast?_append, List.getLast?_singleton, Option.some_or, Option.map_some] at hpa
          cases hpa
          exact .inr (.inr (.inr (.inl ⟨q, last, by simpa [mem_foldl_setInsert] using hp, rfl⟩)))
      · obtain ⟨e, he, rfl⟩ := List.mem_map.1 h
        exact .inr (.inr (.inr (.inr ⟨e, he, rfl⟩)))
    · rintro (⟨he, rfl⟩ | ⟨sc, hs, rfl⟩ | ⟨f, hfm, deps, hd, rfl⟩ | ⟨p, last, hp, rfl⟩ | ⟨e, he, rfl⟩)
      · exact .inl (.inl (.inl (.inl (by rw [he]; exact List.mem_singleton.2 rfl))))
      · exact .inl (.inl (.inl (.inr (List.mem_map.2 ⟨sc, hs, rfl⟩))))
      · obtain ⟨b, hb, deps', hd', rfl⟩ := hf.left hfm
        rw [hd] at hd'
        cases hd'
        exact .inl (.inl (.inr hb))
      · refine .inl (.inr ((ht _).2 ⟨p ++ [last], ?_, ?_⟩))
        · simpa [mem_foldl_setInsert] using hp
        · simp only [rustTypeApi, List.getLast?_append, List.getLast?_singleton, Option.some_or, Option.map_some]
          rfl
      · exact .inr (List.mem_map.2 ⟨e, he, rfl⟩)

theorem findItemsInRoot_iff (items root : List BindgenItem) :
    (findItemsInRoot items).map (·.getD []) = some root ↔ RootIs items root := by
  induction items with
  | nil =>
    constructor
    · intro h; cases h; exact .none
    · intro h; cases h; rfl
  | cons i l ih =>
    cases i with
    | mod id m =>
      unfold findItemsInRoot
      by_cases hid : id = "root"
      · rw [if_pos hid]
        constructor
        · intro h
          cases h
          rw [hid]
          exact .root
        · intro h
          cases h with
          | root => rfl
          | skip _ h2 _ => exact absurd rfl (h2 _ _)
      · rw [if_neg hid]
        constructor
        · intro h; cases h
        · intro h
          cases h with
          | root => exact absurd rfl hid
          | skip _ h2 _ => exact absurd rfl (h2 _ _)
    | modDecl id =>
      unfold findItemsInRoot
      by_cases hid : id = "root"
      · rw [if_pos hid, ih]
        constructor
        · intro h
          rw [hid]
          exact .decl h
        · intro h
          cases h with
          | decl h => exact h
          | skip h1 _ _ => exact absurd rfl (h1 _)
      · rw [if_neg hid]
        constructor
        · intro h; cases h
        · intro h
          cases h with
          | decl h => exact absurd rfl hid
          | skip h1 _ _ => exact absurd rfl (h1 _)
    | _ =>
      unfold findItemsInRoot
      rw [ih]
      constructor
      · intro h; exact .skip nofun nofun h
      · intro h
        cases h with
        | skip _ _ h => exact h

/-! ## The whole parser -/

/-- What was found before external types are put in: the list of APIs of the configuration, then those of the items. -/
def FoundBy (hash : Config → Nat) (sigOf : RustSig → RustFnSig) (cfg : Config) (cb : Callbacks)
    (items : List BindgenItem) (found : List NullApi) : Prop :=
  ∃ l root outs, configApis hash sigOf cfg = some (.ok l) ∧ RootIs items root ∧ ItemsFate cfg cb [] root outs ∧
    found = l ++ moduleApis [] outs

theorem fromIter_names (l : List NullApi) (n : QName) :
    (∃ a ∈ (ApiVec.fromIter l).apis, a.name = n) ↔ ∃ a ∈ l, a.name = n := by
  have := apivec_extend_names ({} : ApiVec Unit Unit Unit) ApiVec.inv_empty l n
  simpa [ApiVec.nameList, ApiVec.fromIter] using this

theorem confirmDirectives_ok (cfg : Config) (l : List NullApi) :
    confirmDirectives cfg (ApiVec.fromIter l) = .ok () ↔
      ∀ d, Directed cfg d → ∃ a ∈ l, a.name.toCppName = d := by
  unfold confirmDirectives
  have key : ∀ d, d ∈ (ApiVec.fromIter l).apis.map (fun a => a.name.toCppName) ↔ ∃ a ∈ l, a.name.toCppName = d := by
    intro d
    rw [List.mem_map]
    constructor
    · rintro ⟨a, ha, rfl⟩
      obtain ⟨b, hb, e⟩ := (fromIter_names l a.name).1 ⟨a, ha, rfl⟩
      exact ⟨b, hb, by rw [e]⟩
    · rintro ⟨a, ha, rfl⟩
      obtain ⟨b, hb, e⟩ := (fromIter_names l a.name).2 ⟨a, ha, rfl⟩
      exact ⟨b, hb, by rw [e]⟩
  split
  · rename_i d hd
    refine iff_of_false (by nofun) fun h => ?_
    have h1 := List.find?_some hd
    have h2 := List.mem_of_find?_eq_some hd
    rw [decide_eq_true_iff, key] at h1
    exact h1 (h d ((Config.directed_iff ..).1 h2))
  · rename_i hd
    refine iff_of_true rfl fun d h => ?_
    have h1 := List.find?_eq_none.1 hd d ((Config.directed_iff ..).2 h)
    rw [decide_eq_true_iff, key] at h1
    exact not_not.1 h1

theorem confirmDirectives_error (cfg : Config) (l : List NullApi) (e : Err) :
    confirmDirectives cfg (ApiVec.fromIter l) = .error e ↔
      ∃ pre d post, cfg.mustGenerateList = pre ++ d :: post ∧ (∀ x ∈ pre, ∃ a ∈ l, a.name.toCppName = x) ∧
        (∀ a ∈ l, a.name.toCppName ≠ d) ∧ e = .didNotGenerateAnything d := by
  unfold confirmDirectives
  have key : ∀ d, d ∈ (ApiVec.fromIter l).apis.map (fun a => a.name.toCppName) ↔ ∃ a ∈ l, a.name.toCppName = d := by
    intro d
    rw [List.mem_map]
    constructor
    · rintro ⟨a, ha, rfl⟩
      obtain ⟨b, hb, e⟩ := (fromIter_names l a.name).1 ⟨a, ha, rfl⟩
      exact ⟨b, hb, by rw [e]⟩
    · rintro ⟨a, ha, rfl⟩
      obtain ⟨b, hb, e⟩ := (fromIter_names l a.name).2 ⟨a, ha, rfl⟩
      exact ⟨b, hb, by rw [e]⟩
  split
  · rename_i d hd
    obtain ⟨hd1, pre, post, hsplit, hpre⟩ := List.find?_eq_some_iff_append.1 hd
    rw [decide_eq_true_iff, key] at hd1
    have hpre' : ∀ x ∈ pre, ∃ a ∈ l, a.name.toCppName = x := by
      intro x hx
      have := hpre x hx
      rw [Bool.not_eq_true', decide_eq_false_iff_not, not_not, key] at this
      exact this
    constructor
    · intro h
      cases h
      exact ⟨pre, d, post, hsplit, hpre', fun a ha he => hd1 ⟨a, ha, he⟩, rfl⟩
    · rintro ⟨pre', d', post', hs', hp', hd', rfl⟩
      have : (cfg.mustGenerateList.find? fun d => d ∉ (ApiVec.fromIter l).apis.map fun a => a.name.toCppName) = some d' := by
        rw [List.find?_eq_some_iff_append]
        refine ⟨?_, pre', post', hs', ?_⟩
        · rw [decide_eq_true_iff, key]
          rintro ⟨a, ha, he⟩
          exact hd' a ha he
        · intro x hx
          rw [Bool.not_eq_true', decide_eq_false_iff_not, not_not, key]
          exact hp' x hx
      rw [hd] at this
      cases this
      rfl
  · rename_i hd
    refine iff_of_false (by nofun) ?_
    rintro ⟨pre, d, post, hs, -, hd', -⟩
    have := List.find?_eq_none.1 hd d (by rw [hs]; simp)
    rw [decide_eq_true_iff, key] at this
    obtain ⟨a, ha, he⟩ := not_not.1 this
    exact hd' a ha he

theorem parseItems_eq {hash : Config → Nat} {sigOf : RustSig → RustFnSig} {cfg : Config} {cb : Callbacks}
    {items : List BindgenItem} {r : Except ConvertErr (ApiVec Unit Unit Unit)}
    (h : parseBindgenItems hash sigOf cfg cb items = some r) :
    (∃ e, configApis hash sigOf cfg = some (.error e) ∧ r = .error (.rust e)) ∨
    ∃ found, FoundBy hash sigOf cfg cb items found ∧
      r = match confirmDirectives cfg (ApiVec.fromIter found) with
        | .error e => .error (.cpp e)
        | .ok () => .ok (replaceExternCppTypes cfg (ApiVec.fromIter found)) := by
  unfold parseBindgenItems at h
  split at h
  · cases h
  · rename_i root hroot
    have hroot : RootIs items (root.getD []) := (findItemsInRoot_iff ..).1 (by rw [hroot]; rfl)
    split at h
    · cases h
    · rename_i e he
      cases h
      exact .inl ⟨e, he, rfl⟩
    · rename_i l hl
      split at h
      · cases h
      · rename_i s hs
        obtain ⟨outs, ho, rfl⟩ := (parseModItems_iff cfg cb [] _ _ (ApiVec.extend_inv ApiVec.inv_empty _) _).1 hs
        dsimp only at h
        rw [finish_all [] _ (ApiVec.extend_inv ApiVec.inv_empty _) _ (items_markers ho), ← extend_append] at h
        refine .inr ⟨_, ⟨l, _, outs, hl, hroot, ho, rfl⟩, ?_⟩
        split at h
        · rename_i e he
          cases h
          unfold ApiVec.fromIter
          rw [he]
        · rename_i e he
          cases h
          unfold ApiVec.fromIter
          rw [he]

theorem parseItems_found {hash : Config → Nat} {sigOf : RustSig → RustFnSig} {cfg : Config} {cb : Callbacks}
    {items : List BindgenItem} {found : List NullApi} (h : FoundBy hash sigOf cfg cb items found) :
    parseBindgenItems hash sigOf cfg cb items = some (match confirmDirectives cfg (ApiVec.fromIter found) with
      | .error e => .error (.cpp e)
      | .ok () => .ok (replaceExternCppTypes cfg (ApiVec.fromIter found))) := by
  obtain ⟨l, root, outs, hl, hroot, ho, rfl⟩ := h
  obtain ⟨r, hr, rfl⟩ := Option.map_eq_some_iff.1 ((findItemsInRoot_iff ..).2 hroot)
  unfold parseBindgenItems
  rw [hr, hl]
  dsimp only
  rw [(parseModItems_iff cfg cb [] _ _ (ApiVec.extend_inv ApiVec.inv_empty _) _).2 ⟨outs, ho, rfl⟩]
  dsimp only
  rw [finish_all [] _ (ApiVec.extend_inv ApiVec.inv_empty _) _ (items_markers ho), ← extend_append]
  unfold ApiVec.fromIter
  generalize confirmDirectives cfg (ApiVec.extend {} (l ++ moduleApis [] outs)) = c
  cases c <;> rfl

/-- The result of parsing: each name has what the items of that name come to (`specMerge`), and then the external
types take the place of whatever has their names. -/
theorem parse_ok_iff (hash : Config → Nat) (sigOf : RustSig → RustFnSig) (cfg : Config) (cb : Callbacks)
    (items : List BindgenItem) (v : ApiVec Unit Unit Unit) :
    parseBindgenItems hash sigOf cfg cb items = some (.ok v) ↔
      ∃ found, FoundBy hash sigOf cfg cb items found ∧ (∀ d, Directed cfg d → ∃ a ∈ found, a.name.toCppName = d) ∧
        v = replaceExternCppTypes cfg (ApiVec.fromIter found) := by
  constructor
  · intro h
    rcases parseItems_eq h with ⟨e, -, he⟩ | ⟨found, hf, he⟩
    · cases he
    · cases hc : confirmDirectives cfg (ApiVec.fromIter found) with
      | error e => rw [hc] at he; cases he
      | ok u =>
        rw [hc] at he
        cases he
        exact ⟨found, hf, (confirmDirectives_ok ..).1 hc, rfl⟩
  · rintro ⟨found, hf, hd, rfl⟩
    rw [parseItems_found hf, (confirmDirectives_ok ..).2 hd]

/-- **C50 (refusal)**: parsing fails for a C++ reason exactly when something asked for by name is not among what was
found, and then the error names the first such thing in the user's order. -/
theorem directive_refused_iff (hash : Config → Nat) (sigOf : RustSig → RustFnSig) (cfg : Config) (cb : Callbacks)
    (items : List BindgenItem) (e : Err) :
    parseBindgenItems hash sigOf cfg cb items = some (.error (.cpp e)) ↔
      ∃ found, FoundBy hash sigOf cfg cb items found ∧
        ∃ pre d post, cfg.mustGenerateList = pre ++ d :: post ∧ (∀ x ∈ pre, ∃ a ∈ found, a.name.toCppName = x) ∧
          (∀ a ∈ found, a.name.toCppName ≠ d) ∧ e = .didNotGenerateAnything d := by
  constructor
  · intro h
    rcases parseItems_eq h with ⟨e, -, he⟩ | ⟨found, hf, he⟩
    · cases he
    · cases hc : confirmDirectives cfg (ApiVec.fromIter found) with
      | error e =>
        rw [hc] at he
        cases he
        exact ⟨found, hf, (confirmDirectives_error ..).1 hc⟩
      | ok u => rw [hc] at he; cases he
  · rintro ⟨found, hf, hd⟩
    rw [parseItems_found hf, (confirmDirectives_error ..).2 hd]

/-- Parsing fails for a Rust reason exactly when a signature given by the user does, and in no other way. -/
theorem parse_error_kinds (hash : Config → Nat) (sigOf : RustSig → RustFnSig) (cfg : Config) (cb : Callbacks)
    (items : List BindgenItem) (e : ConvertErr) (h : parseBindgenItems hash sigOf cfg cb items = some (.error e)) :
    (∃ r, e = .rust r ∧ configApis hash sigOf cfg = some (.error r)) ∨
      ∃ d, Directed cfg d ∧ e = .cpp (.didNotGenerateAnything d) := by
  rcases parseItems_eq h with ⟨r, hr, he⟩ | ⟨found, hf, he⟩
  · cases he
    exact .inl ⟨r, rfl, hr⟩
  · cases hc : confirmDirectives cfg (ApiVec.fromIter found) with
    | error e =>
      rw [hc] at he
      cases he
      obtain ⟨pre, d, post, hm, -, -, rfl⟩ := (confirmDirectives_error ..).1 hc
      exact .inr ⟨d, (Config.directed_iff ..).1 (by rw [hm]; simp), rfl⟩
    | ok u => rw [hc] at he; cases he

/-! ## What users rely on -/

theorem foldl_specMerge_mem (m : List NullApi) (o : Option NullApi) (a : NullApi) (h : m.foldl specMerge o = some a) :
    o = some a ∨ a ∈ m ∨ ∃ b ∈ m, b.isIgnored = false ∧ a = ApiVec.duplicateMarker b.name := by
  induction m generalizing o with
  | nil => exact .inl h
  | cons c m ih =>
    rw [List.foldl_cons] at h
    rcases ih _ h with h' | h' | ⟨b, hb, h'⟩
    · cases o with
      | none =>
        cases h'
        exact .inr (.inl (by simp))
      | some x =>
        unfold specMerge at h'
        dsimp only at h'
        split at h'
        · exact .inl h'
        · rename_i hc
          cases h'
          exact .inr (.inr ⟨c, by simp, by simpa using hc, rfl⟩)
    · exact .inr (.inl (by simp [h']))
    · exact .inr (.inr ⟨b, by simp [hb], h'⟩)

theorem mem_fromIter {l : List NullApi} {a : NullApi} (h : a ∈ (ApiVec.fromIter l).apis) :
    a ∈ l ∨ ∃ b ∈ l, b.isIgnored = false ∧ a = ApiVec.duplicateMarker b.name := by
  have hi : (ApiVec.fromIter l).Inv := ApiVec.extend_inv ApiVec.inv_empty l
  have := (ApiVec.get?_some_iff hi a.name a).2 ⟨h, rfl⟩
  unfold ApiVec.fromIter at this
  rw [apivec_extend_spec _ ApiVec.inv_empty] at this
  rcases foldl_specMerge_mem _ _ _ this with h | h | ⟨b, hb, h⟩
  · cases h
  · exact .inl (List.mem_filter.1 h).1
  · exact .inr ⟨b, (List.mem_filter.1 hb).1, h⟩

/-- **C01, C04 (names)**: the names found by parsing are those of the configuration, of the items and of the external
types, each once. -/
theorem parsed_names (hash : Config → Nat) (sigOf : RustSig → RustFnSig) (cfg : Config) (cb : Callbacks)
    (items : List BindgenItem) (v : ApiVec Unit Unit Unit) (found : List NullApi)
    (h : parseBindgenItems hash sigOf cfg cb items = some (.ok v)) (hf : FoundBy hash sigOf cfg cb items found) :
    v.Inv ∧ ∀ n, n ∈ v.nameList ↔ (∃ a ∈ found, a.name = n) ∨ ∃ a, ExternIs cfg n a := by
  have h' := parseItems_found hf
  rw [h] at h'
  have hv : v = replaceExternCppTypes cfg (ApiVec.fromIter found) := by
    generalize confirmDirectives cfg (ApiVec.fromIter found) = c at h'
    cases c with
    | error e => cases h'
    | ok u => cases h'; rfl
  subst hv
  have hi : (ApiVec.fromIter found).Inv := ApiVec.extend_inv ApiVec.inv_empty found
  obtain ⟨h1, h2⟩ := replaceExtern_spec cfg (ApiVec.fromIter found) hi
  refine ⟨h1, fun n => ?_⟩
  unfold ApiVec.nameList
  rw [List.mem_map]
  constructor
  · rintro ⟨a, ha, rfl⟩
    rcases (h2 a).1 ha with ⟨ha, -⟩ | ha
    · exact .inl ((fromIter_names found a.name).1 ⟨a, ha, rfl⟩)
    · exact .inr ⟨a, ha⟩
  · intro hn
    by_cases he : ∃ a, ExternIs cfg n a
    · obtain ⟨a, ha⟩ := he
      have hname : a.name = n := by
        obtain ⟨_, _, _, _, _, _, _, rfl⟩ := ha
        rfl
      exact ⟨a, (h2 a).2 (.inr (by rw [hname]; exact ha)), hname⟩
    · obtain ⟨a, ha, hname⟩ := (fromIter_names found n).2 (hn.resolve_right he)
      exact ⟨a, (h2 a).2 (.inl ⟨ha, fun x hx => he ⟨x, by rw [← hname]; exact hx⟩⟩), hname⟩

/-- **C50 (obedience)**: if parsing succeeds, whatever the user asked for by name is there under that C++ name. -/
theorem directives_obeyed (hash : Config → Nat) (sigOf : RustSig → RustFnSig) (cfg : Config) (cb : Callbacks)
    (items : List BindgenItem) (v : ApiVec Unit Unit Unit) (h : parseBindgenItems hash sigOf cfg cb items = some (.ok v))
    (d : String) (hd : Directed cfg d) : ∃ a ∈ v.apis, a.name.toCppName = d := by
  obtain ⟨found, hf, hobey, -⟩ := (parse_ok_iff ..).1 h
  obtain ⟨a, ha, he⟩ := hobey d hd
  have := ((parsed_names _ _ _ _ _ _ _ h hf).2 a.name).2 (.inl ⟨a, ha, rfl⟩)
  obtain ⟨b, hb, hn⟩ := List.mem_map.1 this
  exact ⟨b, hb, by rw [hn]; exact he⟩

theorem foreign_found {cb : Callbacks} {ns : List String} {l : List BindgenForeign} {fs : List FuncToConvert}
    {st : List NullApi} (h : ForeignFate cb ns l fs st) :
    (∀ b, .fn b ∈ l → ∃ f ∈ fs, FnFound cb ns b f) ∧
    (∀ id, .static id ∈ l → markerFor ns id (.other "StaticData") ∈ st) ∧
    (∀ f ∈ fs, ∃ b, .fn b ∈ l ∧ FnFound cb ns b f) ∧
    (∀ a ∈ st, ∃ id, .static id ∈ l ∧ a = markerFor ns id (.other "StaticData")) := by
  induction h with
  | nil => refine ⟨?_, ?_, ?_, ?_⟩ <;> intro x hx <;> cases hx
  | @fn b f l fs st hf _ ih =>
    obtain ⟨h1, h2, h3, h4⟩ := ih
    refine ⟨?_, ?_, ?_, ?_⟩
    · intro b' hb'
      rcases List.mem_cons.1 hb' with e | hb'
      · cases e
        exact ⟨f, by simp, hf⟩
      · obtain ⟨f', hf', h⟩ := h1 b' hb'
        exact ⟨f', by simp [hf'], h⟩
    · intro id hid
      rcases List.mem_cons.1 hid with e | hid
      · cases e
      · exact h2 id hid
    · intro f' hf'
      rcases List.mem_cons.1 hf' with rfl | hf'
      · exact ⟨b, by simp, hf⟩
      · obtain ⟨b', hb', h⟩ := h3 f' hf'
        exact ⟨b', by simp [hb'], h⟩
    · intro a ha
      obtain ⟨id, hid, h⟩ := h4 a ha
      exact ⟨id, by simp [hid], h⟩
  | @static id l fs st _ ih =>
    obtain ⟨h1, h2, h3, h4⟩ := ih
    refine ⟨?_, ?_, ?_, ?_⟩
    · intro b' hb'
      rcases List.mem_cons.1 hb' with e | hb'
      · cases e
      · exact h1 b' hb'
    · intro id' hid
      rcases List.mem_cons.1 hid with e | hid
      · cases e
        exact List.mem_cons_self
      · exact List.mem_cons_of_mem _ (h2 id' hid)
    · intro f hf
      obtain ⟨b, hb, h⟩ := h3 f hf
      exact ⟨b, by simp [hb], h⟩
    · intro a ha
      rcases List.mem_cons.1 ha with rfl | ha
      · exact ⟨id, by simp, rfl⟩
      · obtain ⟨id', hid, h⟩ := h4 a ha
        exact ⟨id', by simp [hid], h⟩
  | @other l fs st _ ih =>
    obtain ⟨h1, h2, h3, h4⟩ := ih
    refine ⟨?_, ?_, ?_, ?_⟩
    · intro b hb
      rcases List.mem_cons.1 hb with e | hb
      · cases e
      · exact h1 b hb
    · intro id hid
      rcases List.mem_cons.1 hid with e | hid
      · cases e
      · exact h2 id hid
    · intro f hf
      obtain ⟨b, hb, h⟩ := h3 f hf
      exact ⟨b, by simp [hb], h⟩
    · intro a ha
      obtain ⟨id, hid, h⟩ := h4 a ha
      exact ⟨id, by simp [hid], h⟩

theorem named_item_kept {cfg : Config} {cb : Callbacks} {ns : List String} {l : List BindgenItem} {i : BindgenItem}
    {o : ItemOut} (h : ItemFate cfg cb ns i o) {id : Ident} (hn : ItemNamed i id) (hl : ¬ LeftOut cfg ns i) :
    ∃ a, FromItem ns l o a ∧ (a.name = ⟨ns, id⟩ ∨ a.name = ⟨ns, markerName id⟩) := by
  cases hn with
  | struct =>
    cases h with
    | vtable stem => exact absurd (.vtable stem) hl
    | structName => exact ⟨_, .inr (.inl (List.mem_singleton.2 rfl)), .inr rfl⟩
    | structMapped _ _ _ _ hm => exact absurd (.mapped hm) hl
    | structBlocked _ _ _ _ _ hb => exact absurd (.structBlocked hb) hl
    | forward => exact ⟨_, .inl (List.mem_singleton.2 rfl), .inl rfl⟩
    | struct => exact ⟨_, .inl (List.mem_singleton.2 rfl), .inl rfl⟩
  | enum =>
    cases h with
    | enumName => exact ⟨_, .inr (.inl (List.mem_singleton.2 rfl)), .inr rfl⟩
    | enumBlocked _ _ hb => exact absurd (.enumBlocked hb) hl
    | enum => exact ⟨_, .inl (List.mem_singleton.2 rfl), .inl rfl⟩
  | const =>
    cases h with
    | constBad hb => exact absurd (.const hb) hl
    | const => exact ⟨_, .inl (List.mem_singleton.2 rfl), .inl rfl⟩
  | type =>
    cases h with
    | type => exact ⟨_, .inl (List.mem_singleton.2 rfl), .inl rfl⟩
  | use hu =>
    cases h with
    | usePlain hu' hne =>
      obtain ⟨-, rfl⟩ := hu.unique hu'
      exact absurd rfl (hne _ _)
    | useChar16 hu' => exact absurd (.char16 hu') hl
    | useSelf hu' =>
      obtain ⟨-, e⟩ := hu.unique hu'
      cases e
      exact ⟨_, .inr (.inl (List.mem_singleton.2 rfl)), .inr rfl⟩
    | useRename hu' =>
      obtain ⟨-, e⟩ := hu.unique hu'
      cases e
      exact ⟨_, .inl (List.mem_singleton.2 rfl), .inl rfl⟩
  | fn hb =>
    cases h with
    | foreign hf =>
      obtain ⟨f, hfm, hff⟩ := (foreign_found hf).1 _ hb
      exact ⟨_, .inr (.inr (.inr ⟨f, hfm, rfl⟩)), .inl (by rw [← hff.1]; rfl)⟩
  | static hs =>
    cases h with
    | foreign hf => exact ⟨_, .inr (.inr (.inl ((foreign_found hf).2.1 _ hs))), .inr rfl⟩

/-- **C04 (parsing)**: every item with a name, in whatever namespace, has an API or a marker of its name afterwards,
unless it is one of those which are left out. -/
theorem item_never_lost (hash : Config → Nat) (sigOf : RustSig → RustFnSig) (cfg : Config) (cb : Callbacks)
    (items root : List BindgenItem) (v : ApiVec Unit Unit Unit)
    (h : parseBindgenItems hash sigOf cfg cb items = some (.ok v)) (hroot : RootIs items root)
    (ns : List String) (l : List BindgenItem) (hm : Module [] root ns l) (i : BindgenItem) (hi : i ∈ l)
    (id : Ident) (hn : ItemNamed i id) (hl : ¬ LeftOut cfg ns i) :
    ∃ a ∈ v.apis, a.name = ⟨ns, id⟩ ∨ a.name = ⟨ns, markerName id⟩ := by
  obtain ⟨found, hf, -, -⟩ := (parse_ok_iff ..).1 h
  have hnames := (parsed_names _ _ _ _ _ _ _ h hf).2
  obtain ⟨lc, root', outs, hlc, hroot', ho, rfl⟩ := hf
  have hr : root' = root := by
    have e1 := (findItemsInRoot_iff ..).2 hroot
    have e2 := (findItemsInRoot_iff ..).2 hroot'
    rw [e1] at e2
    exact (Option.some.inj e2).symm
  subst hr
  obtain ⟨os', ho', hsub⟩ := hm.fate ho
  obtain ⟨o, hom, hfate⟩ := ho'.fate_of_mem hi
  obtain ⟨a, ha, hname⟩ := named_item_kept (l := l) hfate hn hl
  have : a ∈ moduleApis [] outs := hsub a ((mem_moduleApis ho' a).2 ⟨o, hom, ha⟩)
  have := (hnames a.name).2 (.inl ⟨a, List.mem_append_right _ this, rfl⟩)
  obtain ⟨b, hb, hbn⟩ := List.mem_map.1 this
  exact ⟨b, hb, by rw [hbn]; exact hname⟩

theorem item_api_named {cfg : Config} {cb : Callbacks} {ns : List String} {l : List BindgenItem} {i : BindgenItem}
    {o : ItemOut} {a : NullApi} (h : ItemFate cfg cb ns i o) (hi : ∀ id items, i ≠ .mod id items)
    (ha : FromItem ns l o a) : ∃ id, ItemNamed i id ∧ (a.name = ⟨ns, id⟩ ∨ a.isIgnored = true ∧ a.name = ⟨ns, markerName id⟩) := by
  unfold FromItem at ha
  cases h with
  | mod => exact absurd rfl (hi _ _)
  | foreign hf =>
    rcases ha with ha | ha | ha | ⟨f, hfm, rfl⟩
    · cases ha
    · cases ha
    · obtain ⟨id, hid, rfl⟩ := (foreign_found hf).2.2.2 a ha
      exact ⟨id, .static hid, .inr ⟨rfl, rfl⟩⟩
    · obtain ⟨b, hb, hff⟩ := (foreign_found hf).2.2.1 f hfm
      exact ⟨_, .fn hb, .inl (by rw [← hff.1]; rfl)⟩
  | useSelf hu =>
    rcases ha with ha | ha | ha | ⟨f, hfm, rfl⟩
    · cases ha
    · rw [List.mem_singleton.1 ha]
      exact ⟨_, .use hu, .inr ⟨rfl, rfl⟩⟩
    · cases ha
    · cases hfm
  | useRename hu =>
    rcases ha with ha | ha | ha | ⟨f, hfm, rfl⟩
    · rw [List.mem_singleton.1 ha]
      exact ⟨_, .use hu, .inl rfl⟩
    · cases ha
    · cases ha
    · cases hfm
  | structName | enumName =>
    rcases ha with ha | ha | ha | ⟨f, hfm, rfl⟩
    · cases ha
    · rw [List.mem_singleton.1 ha]
      first
        | exact ⟨_, .struct, .inr ⟨rfl, rfl⟩⟩
        | exact ⟨_, .enum, .inr ⟨rfl, rfl⟩⟩
    · cases ha
    · cases hfm
  | forward | struct | enum | const | type =>
    rcases ha with ha | ha | ha | ⟨f, hfm, rfl⟩
    · rw [List.mem_singleton.1 ha]
      first
        | exact ⟨_, .struct, .inl rfl⟩
        | exact ⟨_, .enum, .inl rfl⟩
        | exact ⟨_, .const, .inl rfl⟩
        | exact ⟨_, .type, .inl rfl⟩
    · cases ha
    · cases ha
    · cases hfm
  | _ =>
    rcases ha with ha | ha | ha | ⟨f, hfm, rfl⟩
    · cases ha
    · cases ha
    · cases ha
    · cases hfm

/-- **C04 (nothing invented)**: each API after parsing is one the configuration asks for, or an external type, or what
an item of the tree leaves, under that item's own name in the namespace of its module; or it marks a name which more
than one of these have. -/
theorem parsed_from (hash : Config → Nat) (sigOf : RustSig → RustFnSig) (cfg : Config) (cb : Callbacks)
    (items root : List BindgenItem) (v : ApiVec Unit Unit Unit)
    (h : parseBindgenItems hash sigOf cfg cb items = some (.ok v)) (hroot : RootIs items root) (a : NullApi) (ha : a ∈ v.apis) :
    ExternIs cfg a.name a ∨
    ∃ b, (a = b ∨ a = ApiVec.duplicateMarker b.name) ∧
      (Configured hash sigOf cfg b ∨
        ∃ ns l i o, Module [] root ns l ∧ i ∈ l ∧ ItemFate cfg cb ns i o ∧ FromItem ns l o b ∧
          ∃ id, ItemNamed i id ∧ (b.name = ⟨ns, id⟩ ∨ b.isIgnored = true ∧ b.name = ⟨ns, markerName id⟩)) := by
  obtain ⟨found, hf, -, rfl⟩ := (parse_ok_iff ..).1 h
  have hi : (ApiVec.fromIter found).Inv := ApiVec.extend_inv ApiVec.inv_empty found
  rcases ((replaceExtern_spec cfg _ hi).2 a).1 ha with ⟨ha, -⟩ | ha
  · right
    obtain ⟨lc, root', outs, hlc, hroot', ho, rfl⟩ := hf
    have hr : root' = root := by
      have e1 := (findItemsInRoot_iff ..).2 hroot
      have e2 := (findItemsInRoot_iff ..).2 hroot'
      rw [e1] at e2
      exact (Option.some.inj e2).symm
    subst hr
    have key : ∀ b ∈ lc ++ moduleApis [] outs, Configured hash sigOf cfg b ∨
        ∃ ns l i o, Module [] root' ns l ∧ i ∈ l ∧ ItemFate cfg cb ns i o ∧ FromItem ns l o b ∧
          ∃ id, ItemNamed i id ∧ (b.name = ⟨ns, id⟩ ∨ b.isIgnored = true ∧ b.name = ⟨ns, markerName id⟩) := by
      intro b hb
      rcases List.mem_append.1 hb with hb | hb
      · exact .inl ((configApis_mem _ _ _ _ hlc b).1 hb)
      · obtain ⟨o, hom, hfr⟩ := (mem_moduleApis ho b).1 hb
        obtain ⟨ns', l', j, o', hm, hj, hne, hfate, hfr'⟩ :=
          module_sources [] root' root' outs b (fun _ h => h) ho ⟨o, hom, hfr⟩
        exact .inr ⟨ns', l', j, o', hm, hj, hfate, hfr', item_api_named hfate hne hfr'⟩
    rcases mem_fromIter ha with ha | ⟨b, hb, -, rfl⟩
    · exact ⟨a, .inl rfl, key a ha⟩
    · exact ⟨b, .inr rfl, key b hb⟩
  · exact .inl ha

/-- **C01, C04 (what survives)**: a real API is there afterwards exactly if it is the external type of its name, or if
there is none and it was the first of its name to be found, and nothing but markers came after it. -/
theorem parsed_real_iff (hash : Config → Nat) (sigOf : RustSig → RustFnSig) (cfg : Config) (cb : Callbacks)
    (items : List BindgenItem) (v : ApiVec Unit Unit Unit) (found : List NullApi)
    (h : parseBindgenItems hash sigOf cfg cb items = some (.ok v)) (hf : FoundBy hash sigOf cfg cb items found) (a : NullApi)
    (ha : a.isIgnored = false) :
    a ∈ v.apis ↔ ExternIs cfg a.name a ∨ ((∀ x, ¬ ExternIs cfg a.name x) ∧
      ∃ rest, (found.filter fun b => b.name = a.name) = a :: rest ∧ ∀ b ∈ rest, b.isIgnored = true) := by
  have h' := parseItems_found hf
  rw [h] at h'
  have hv : v = replaceExternCppTypes cfg (ApiVec.fromIter found) := by
    generalize confirmDirectives cfg (ApiVec.fromIter found) = c at h'
    cases c with
    | error e => cases h'
    | ok u => cases h'; rfl
  subst hv
  have hi : (ApiVec.fromIter found).Inv := ApiVec.extend_inv ApiVec.inv_empty found
  rw [(replaceExtern_spec cfg _ hi).2 a, ← apivec_from_iter_real_iff found a ha, ApiVec.get?_some_iff hi]
  constructor
  · rintro (⟨h1, h2⟩ | h)
    · exact .inr ⟨h2, h1, rfl⟩
    · exact .inl h
  · rintro (h | ⟨h2, h1, -⟩)
    · exact .inr h
    · exact .inl ⟨h1, h2⟩

/-- A class, defined or only declared, or an enum. -/
def Api.definesType : NullApi → Bool
  | .struct .. | .enum .. | .forwardDeclaration .. => true
  | _ => false

theorem item_not_blocked {cfg : Config} {cb : Callbacks} {ns : List String} {l : List BindgenItem} {i : BindgenItem}
    {o : ItemOut} {a : NullApi} (h : ItemFate cfg cb ns i o) (hi : ∀ id items, i ≠ .mod id items)
    (ha : FromItem ns l o a) (hk : Api.definesType a = true) : a.name.toCppName ∉ cfg.blocklist := by
  have hi1 : a ∉ o.errors := fun hx => by
    have := (item_markers h).1 a hx
    cases a <;> first | (cases hk; done) | cases this
  have hi2 : a ∉ o.statics := fun hx => by
    have := (item_markers h).2 a hx
    cases a <;> first | (cases hk; done) | cases this
  have ha : a ∈ o.now := by
    rcases ha with ha | ha | ha | ⟨f, -, rfl⟩
    · exact ha
    · exact absurd ha hi1
    · exact absurd ha hi2
    · cases hk
  clear hi1 hi2
  cases h with
  | mod => exact absurd rfl (hi _ _)
  | forward _ _ _ _ _ hb =>
    rw [List.mem_singleton.1 ha]
    exact hb
  | struct _ _ _ _ _ hb =>
    rw [List.mem_singleton.1 ha]
    exact hb
  | enum _ _ hb =>
    rw [List.mem_singleton.1 ha]
    exact hb
  | const | type | useRename =>
    rw [List.mem_singleton.1 ha] at hk
    cases hk
  | _ => cases ha

/-- **C59 (parsing)**: a class or enum which is blocked is never there after parsing, neither defined nor declared. -/
theorem blocked_never_parsed (hash : Config → Nat) (sigOf : RustSig → RustFnSig) (cfg : Config) (cb : Callbacks)
    (items : List BindgenItem) (v : ApiVec Unit Unit Unit)
    (h : parseBindgenItems hash sigOf cfg cb items = some (.ok v)) (a : NullApi) (ha : a ∈ v.apis)
    (hk : Api.definesType a = true) : a.name.toCppName ∉ cfg.blocklist := by
  obtain ⟨found, ⟨l, root, outs, hl, hroot, ho, rfl⟩, -, rfl⟩ := (parse_ok_iff ..).1 h
  have hi : (ApiVec.fromIter (l ++ moduleApis [] outs)).Inv := ApiVec.extend_inv ApiVec.inv_empty _
  rcases ((replaceExtern_spec cfg _ hi).2 a).1 ha with ⟨ha, -⟩ | ⟨_, _, _, _, _, _, _, e⟩
  · rcases mem_fromIter ha with ha | ⟨b, hb, -, rfl⟩
    · rcases List.mem_append.1 ha with ha | ha
      · rcases (configApis_mem _ _ _ _ hl a).1 ha with
          ⟨-, rfl⟩ | ⟨_, _, rfl⟩ | ⟨_, _, _, _, rfl⟩ | ⟨_, _, _, rfl⟩ | ⟨_, _, rfl⟩ <;> cases hk
      · obtain ⟨o, hom, hfr⟩ := (mem_moduleApis ho a).1 ha
        obtain ⟨ns', l', j, o', hm, hj, hne, hfate, hfr'⟩ :=
          module_sources [] root root outs a (fun _ h => h) ho ⟨o, hom, hfr⟩
        exact item_not_blocked hfate hne hfr' hk
    · cases hk
  · rw [e] at hk
    cases hk

/-- **C64 (methods)**: the class of a function is the last one, in its own module, whose `impl` block has a method for
it; without any it is free. -/
theorem method_class (cfg : Config) (cb : Callbacks) (root : List BindgenItem) (outs : List ItemOut)
    (h : ItemsFate cfg cb [] root outs) (ns : List String) (l : List BindgenItem) (hm : Module [] root ns l)
    (fs : List BindgenForeign) (hfs : .foreignMod fs ∈ l) (b : BindgenFn) (hb : .fn b ∈ fs) :
    ∃ f, FnFound cb ns b f ∧
      .function ⟨⟨ns, f.ident⟩, f.originalName⟩ { f with selfTy := lastReceiver (classEvidence ns l) f.ident } () ∈
        moduleApis [] outs := by
  obtain ⟨os, ho, hsub⟩ := hm.fate h
  obtain ⟨o, hom, hf⟩ := ho.fate_of_mem hfs
  cases hf with
  | foreign hf =>
    obtain ⟨f, hfm, hff⟩ := (foreign_found hf).1 b hb
    exact ⟨f, hff, hsub _ ((mem_moduleApis ho _).2 ⟨_, hom, .inr (.inr (.inr ⟨f, hfm, rfl⟩))⟩)⟩

/-! ## Panics -/

/-- What bindgen must keep to if the parser is not to panic on an item. -/
def ItemSafe : BindgenItem → Prop
  | .struct id _ _ => (∃ stem, id = stem ++ "__bindgen_vtable") ∨ isIdentText id = true
  | .enum id _ => isIdentText id = true
  | .const _ (.path segs _) _ => ∀ pre last, segs = pre ++ [last] → isIdentText last = true
  | .use t => ∀ segs a b, UseIs t segs (.rename a b) → b = "bindgen_cchar16_t" ∨
      ∃ rest, segs = "self" :: "super" :: rest ∧ rest ++ [a] ≠ ["root"] ∧ rest ++ [a] ≠ ["output"]
  | .impl (.path segs _) _ => segs ≠ []
  | _ => True

theorem checked_cases (id : Ident) (h : isIdentText id = true) :
    validateIdentOkForCxx id = .ok ∨ ∃ e, validateIdentOkForCxx id = .bad e := by
  cases hv : validateIdentOkForCxx id with
  | ok => exact .inl rfl
  | bad e => exact .inr ⟨e, rfl⟩
  | panic =>
    rw [validate_panic_iff, h] at hv
    cases hv

theorem checked_ident {id : Ident} (h : validateIdentOkForCxx id ≠ .panic) : isIdentText id = true := by
  cases hv : isIdentText id with
  | true => rfl
  | false => exact absurd ((validate_panic_iff id).2 hv) h

theorem foreign_exists (cb : Callbacks) (r : Nat) (hr : cb.rootMod = some r) (ns : List String)
    (l : List BindgenForeign) : ∃ fs st, ForeignFate cb ns l fs st := by
  induction l with
  | nil => exact ⟨_, _, .nil⟩
  | cons i l ih =>
    obtain ⟨fs, st, h⟩ := ih
    cases i with
    | fn b =>
      have hid : ∀ q, ∃ x, cb.idByName q = some x := fun q => ⟨_, by unfold Callbacks.idByName; rw [hr]; rfl⟩
      obtain ⟨x, hx⟩ := hid ⟨ns, stripBindgenSuffix b.ident⟩
      have : ∃ f, foreignFn cb ns b = some f := by
        unfold foreignFn Callbacks.virtualnessOf Callbacks.cppVisibilityOf Callbacks.specialMemberOf
          Callbacks.originalName Callbacks.explicitnessOf
        simp only [hx]
        exact ⟨_, rfl⟩
      obtain ⟨f, hf⟩ := this
      exact ⟨_, _, .fn ((foreignFn_iff ..).1 hf) h⟩
    | static id => exact ⟨_, _, .static h⟩
    | other => exact ⟨_, _, .other h⟩

theorem attrError_exists (cb : Callbacks) (r : Nat) (hr : cb.rootMod = some r) (q : QName) :
    ∃ o e, cb.originalName q = some o ∧ AttrError cb q e := by
  have ho : ∃ o, cb.originalName q = some o :=
    ⟨_, by unfold Callbacks.originalName Callbacks.idByName; rw [hr]; rfl⟩
  obtain ⟨o, ho⟩ := ho
  obtain ⟨-, e, he⟩ := lookups_total ho q
  exact ⟨o, e, ho, he⟩

open Classical in
theorem plain_item_fate_iff (cfg : Config) (cb : Callbacks) (r : Nat) (hr : cb.rootMod = some r) (ns : List String)
    (i : BindgenItem) (hm : ∀ id items, i ≠ .mod id items) :
    (∃ o, ItemFate cfg cb ns i o) ↔ ItemSafe i := by
  cases i with
  | mod id items => exact absurd rfl (hm _ _)
  | modDecl id => exact ⟨fun _ => trivial, fun _ => ⟨_, .modDecl⟩⟩
  | other => exact ⟨fun _ => trivial, fun _ => ⟨_, .other⟩⟩
  | foreignMod l =>
    refine ⟨fun _ => trivial, fun _ => ?_⟩
    obtain ⟨fs, st, h⟩ := foreign_exists cb r hr ns l
    exact ⟨_, .foreign h⟩
  | type id ty gs =>
    refine ⟨fun _ => trivial, fun _ => ?_⟩
    obtain ⟨o, e, ho, -⟩ := attrError_exists cb r hr ⟨ns, id⟩
    exact ⟨_, .type ho⟩
  | enum id item =>
    constructor
    · rintro ⟨o, h⟩
      cases h with
      | enumName h => exact checked_ident (by rw [h]; nofun)
      | enumBlocked h _ _ => exact checked_ident (by rw [h]; nofun)
      | enum h _ _ => exact checked_ident (by rw [h]; nofun)
    · intro h
      rcases checked_cases id h with hv | ⟨e, hv⟩
      · obtain ⟨o, e, ho, -⟩ := attrError_exists cb r hr ⟨ns, id⟩
        by_cases hb : QName.toCppName ⟨ns, id⟩ ∈ cfg.blocklist
        · exact ⟨_, .enumBlocked hv ho hb⟩
        · exact ⟨_, .enum hv ho hb⟩
      · exact ⟨_, .enumName hv⟩
  | struct id fs gs =>
    constructor
    · rintro ⟨o, h⟩
      cases h with
      | vtable stem => exact .inl ⟨stem, rfl⟩
      | structName _ h => exact .inr (checked_ident (by rw [h]; nofun))
      | structMapped _ h => exact .inr (checked_ident (by rw [h]; nofun))
      | structBlocked _ h => exact .inr (checked_ident (by rw [h]; nofun))
      | forward _ h => exact .inr (checked_ident (by rw [h]; nofun))
      | struct _ h => exact .inr (checked_ident (by rw [h]; nofun))
    · intro h
      by_cases hs : ∃ stem, id = stem ++ "__bindgen_vtable"
      · obtain ⟨stem, rfl⟩ := hs
        exact ⟨_, .vtable stem⟩
      · have hns : ∀ stem, id ≠ stem ++ "__bindgen_vtable" := fun stem he => hs ⟨stem, he⟩
        rcases checked_cases id (h.resolve_left hs) with hv | ⟨e, hv⟩
        · obtain ⟨o, e, ho, he⟩ := attrError_exists cb r hr ⟨ns, id⟩
          by_cases hm : MappedElsewhere cfg ⟨ns, id⟩
          · exact ⟨_, .structMapped hns hv ho he hm⟩
          · by_cases hb : QName.toCppName ⟨ns, id⟩ ∈ cfg.blocklist
            · exact ⟨_, .structBlocked hns hv ho he hm hb⟩
            · by_cases hd : DeclaredNotDefined fs e
              · exact ⟨_, .forward hns hv ho he hm hb hd⟩
              · exact ⟨_, .struct hns hv ho he hm hb hd⟩
        · exact ⟨_, .structName hns hv⟩
  | const id ty item =>
    obtain ⟨o, e, ho, -⟩ := attrError_exists cb r hr ⟨ns, id⟩
    cases ty with
    | path segs args =>
      constructor
      · rintro ⟨o, h⟩ pre last rfl
        generalize hp : Ty.path (pre ++ [last]) args = ty at h
        cases h with
        | constBad hb =>
          have := (Ty.path.inj hp).1
          have := List.append_inj' this rfl
          cases this.2
          exact checked_ident (by rw [hb]; nofun)
        | const _ hc => exact checked_ident (by rw [hc pre last args hp.symm]; nofun)
      · intro h
        rcases List.eq_nil_or_concat segs with rfl | ⟨pre, last, rfl⟩
        · exact ⟨_, .const ho (by intro segs last args he; cases segs <;> cases (Ty.path.inj he).1)⟩
        · rw [List.concat_eq_append] at h ⊢
          rcases checked_cases last (h pre last rfl) with hv | ⟨e, hv⟩
          · refine ⟨_, .const ho ?_⟩
            intro segs last' args' he
            have := List.append_inj' (Ty.path.inj he).1 rfl
            cases this.2
            exact hv
          · exact ⟨_, .constBad hv⟩
    | _ => exact ⟨fun _ => trivial, fun _ => ⟨_, .const ho (by nofun)⟩⟩
  | impl ty items =>
    cases ty with
    | path segs args =>
      constructor
      · rintro ⟨o, h⟩ rfl
        generalize hp : Ty.path [] args = ty at h
        cases h with
        | @impl _ segs =>
          have := (Ty.path.inj hp).1
          cases segs <;> cases this
        | implOther h => exact h _ _ hp.symm
      · intro h
        rcases List.eq_nil_or_concat segs with rfl | ⟨pre, last, rfl⟩
        · exact absurd rfl h
        · rw [List.concat_eq_append]
          exact ⟨_, .impl⟩
    | _ => exact ⟨fun _ => trivial, fun _ => ⟨_, .implOther (by nofun)⟩⟩
  | use t =>
    constructor
    · rintro ⟨o, h⟩ segs a b hu
      cases h with
      | usePlain hu' hne =>
        obtain ⟨-, rfl⟩ := hu.unique hu'
        exact absurd rfl (hne _ _)
      | useChar16 hu' =>
        obtain ⟨-, e⟩ := hu.unique hu'
        cases e
        exact .inl rfl
      | useSelf hu' hne hq =>
        obtain ⟨rfl, e⟩ := hu.unique hu'
        cases e
        refine .inr ⟨_, rfl, ?_, ?_⟩
        · intro he
          rw [(qname_type_path_panic_iff _).2 (.inr (.inl he))] at hq
          cases hq
        · intro he
          rw [(qname_type_path_panic_iff _).2 (.inr (.inr he))] at hq
          cases hq
      | useRename hu' hne hq =>
        obtain ⟨rfl, e⟩ := hu.unique hu'
        cases e
        refine .inr ⟨_, rfl, ?_, ?_⟩
        · intro he
          rw [(qname_type_path_panic_iff _).2 (.inr (.inl he))] at hq
          cases hq
        · intro he
          rw [(qname_type_path_panic_iff _).2 (.inr (.inr he))] at hq
          cases hq
    · intro h
      obtain ⟨segs, e, hu, hne⟩ := useIs_exists t
      by_cases hr' : ∃ a b, e = .rename a b
      · obtain ⟨a, b, rfl⟩ := hr'
        by_cases hb : b = "bindgen_cchar16_t"
        · rw [hb] at hu
          exact ⟨_, .useChar16 hu⟩
        · obtain ⟨rest, hs, h1, h2⟩ := (h segs a b hu).resolve_left hb
          rw [hs] at hu
          cases hq : QName.ofTypePath (rest ++ [a]) with
          | none =>
            rcases (qname_type_path_panic_iff _).1 hq with h | h | h
            · cases rest <;> cases h
            · exact absurd h h1
            · exact absurd h h2
          | some q =>
            by_cases he : q = ⟨ns, b⟩
            · exact ⟨_, .useSelf hu hb hq he⟩
            · obtain ⟨o, e, ho, -⟩ := attrError_exists cb r hr ⟨ns, b⟩
              exact ⟨_, .useRename hu hb hq he ho⟩
      · exact ⟨_, .usePlain hu fun a b he => hr' ⟨a, b, he⟩⟩

mutual
theorem item_fate_iff (cfg : Config) (cb : Callbacks) (r : Nat) (hr : cb.rootMod = some r) (ns : List String)
    (i : BindgenItem) :
    (∃ o, ItemFate cfg cb ns i o) ↔
      ItemSafe i ∧ ∀ id items, i = .mod id items → ∀ ns' l', Module (ns ++ [id]) items ns' l' → ∀ j ∈ l', ItemSafe j := by
  match i with
  | .mod id items =>
    have ih := items_fate_iff cfg cb r hr (ns ++ [id]) items
    constructor
    · rintro ⟨o, h⟩
      cases h with
      | mod h =>
        refine ⟨trivial, ?_⟩
        intro id' items' e
        cases e
        exact ih.1 ⟨_, h⟩
    · rintro ⟨-, h⟩
      obtain ⟨os, ho⟩ := ih.2 (h id items rfl)
      exact ⟨_, .mod ho⟩
  | .struct .. | .enum .. | .use .. | .const .. | .type .. | .modDecl .. | .other | .foreignMod .. | .impl .. =>
    rw [plain_item_fate_iff cfg cb r hr ns _ (fun _ _ e => by cases e)]
    exact ⟨fun h => ⟨h, fun _ _ e => by cases e⟩, fun h => h.1⟩
theorem items_fate_iff (cfg : Config) (cb : Callbacks) (r : Nat) (hr : cb.rootMod = some r) (ns : List String)
    (l : List BindgenItem) :
    (∃ os, ItemsFate cfg cb ns l os) ↔ ∀ ns' l', Module ns l ns' l' → ∀ j ∈ l', ItemSafe j := by
  have key : (∃ os, ItemsFate cfg cb ns l os) ↔ ∀ i ∈ l, ItemSafe i ∧
      ∀ id items, i = .mod id items → ∀ ns' l', Module (ns ++ [id]) items ns' l' → ∀ j ∈ l', ItemSafe j := by
    match l with
    | [] => exact ⟨fun _ => by simp, fun _ => ⟨_, .nil⟩⟩
    | i :: l =>
      have h1 := item_fate_iff cfg cb r hr ns i
      have h2 := items_fate_iff cfg cb r hr ns l
      constructor
      · rintro ⟨os, h⟩ j hj
        cases h with
        | cons hi hl =>
          rcases List.mem_cons.1 hj with rfl | hj
          · exact h1.1 ⟨_, hi⟩
          · have := h2.1 ⟨_, hl⟩
            refine ⟨this _ _ .self j hj, ?_⟩
            rintro id items rfl ns' l' hm
            exact this _ _ ((Module.nested .self hj).trans hm)
      · intro h
        obtain ⟨o, ho⟩ := h1.2 (h i (by simp))
        have : ∀ ns' l', Module ns l ns' l' → ∀ j ∈ l', ItemSafe j := by
          intro ns' l' hm
          have aux : ∀ ns' l', Module ns l ns' l' → (ns' = ns ∧ l' = l) ∨
              ∃ id items, .mod id items ∈ l ∧ Module (ns ++ [id]) items ns' l' := by
            intro ns' l' hm
            induction hm with
            | self => exact .inl ⟨rfl, rfl⟩
            | @nested n' m' id items _ hin ih =>
              rcases ih with ⟨rfl, rfl⟩ | ⟨id', items', hi', hm'⟩
              · exact .inr ⟨_, _, hin, .self⟩
              · exact .inr ⟨_, _, hi', .nested hm' hin⟩
          rcases aux ns' l' hm with ⟨rfl, rfl⟩ | ⟨id, items, hi, hm'⟩
          · intro j hj
            exact (h j (by simp [hj])).1
          · exact (h _ (by simp [hi])).2 id items rfl ns' l' hm'
        obtain ⟨os, hos⟩ := h2.2 this
        exact ⟨_, .cons ho hos⟩
  rw [key]
  constructor
  · intro h ns' l' hm
    have aux : ∀ ns' l', Module ns l ns' l' → (ns' = ns ∧ l' = l) ∨
        ∃ id items, .mod id items ∈ l ∧ Module (ns ++ [id]) items ns' l' := by
      intro ns' l' hm
      induction hm with
      | self => exact .inl ⟨rfl, rfl⟩
      | @nested n' m' id items _ hin ih =>
        rcases ih with ⟨rfl, rfl⟩ | ⟨id', items', hi', hm'⟩
        · exact .inr ⟨_, _, hin, .self⟩
        · exact .inr ⟨_, _, hi', .nested hm' hin⟩
    rcases aux ns' l' hm with ⟨rfl, rfl⟩ | ⟨id, items, hi, hm'⟩
    · intro j hj
      exact (h j hj).1
    · exact (h _ hi).2 id items rfl ns' l' hm'
  · intro h i hi
    refine ⟨h _ _ .self i hi, ?_⟩
    rintro id items rfl ns' l' hm
    exact h _ _ ((Module.nested .self hi).trans hm)
end

/-- **C57 (parsing)**: once bindgen has reported its root module, and the signatures in the configuration can be read,
parsing panics only if there is a module before `root`, or if some item of the tree has a shape which bindgen does not
write: an identifier which is none, a renamed import which does not begin with `self::super` or is of `root` itself, or
an `impl` block for an empty path. -/
theorem parse_panics_iff (hash : Config → Nat) (sigOf : RustSig → RustFnSig) (cfg : Config) (cb : Callbacks)
    (items : List BindgenItem) (r : Nat) (hr : cb.rootMod = some r) (l : List NullApi)
    (hc : configApis hash sigOf cfg = some (.ok l)) :
    parseBindgenItems hash sigOf cfg cb items = none ↔
      ¬ ∃ root, RootIs items root ∧ ∀ ns' l', Module [] root ns' l' → ∀ j ∈ l', ItemSafe j := by
  constructor
  · rintro h ⟨root, hroot, hs⟩
    obtain ⟨outs, ho⟩ := (items_fate_iff cfg cb r hr [] root).2 hs
    rw [parseItems_found ⟨l, root, outs, hc, hroot, ho, rfl⟩] at h
    cases h
  · intro h
    cases hp : parseBindgenItems hash sigOf cfg cb items with
    | none => rfl
    | some x =>
      exfalso
      rcases parseItems_eq hp with ⟨e, he, -⟩ | ⟨found, ⟨l', root, outs, hc', hroot, ho, -⟩, -⟩
      · rw [hc] at he
        cases he
      · exact h ⟨root, hroot, (items_fate_iff cfg cb r hr [] root).1 ⟨_, ho⟩⟩

end Verif
