import Verif.ParseBindgen
import Verif.ApiVecProps
import Verif.NamesProps
import Verif.Util
import Mathlib.Tactic.Push

/-!
# C50, C04: what parsing finds

`ItemFate` says of each kind of item bindgen can write what becomes of it, case by case; `moduleApis` puts what the
items of one module gave in its final order. `parse_module` shows that parsing does exactly this.
-/

set_option autoImplicit false

namespace Verif

/-- What one item of a module leaves behind: APIs at once, markers for errors, markers for global variables, functions
whose class is yet to be found, and evidence on which functions belong to which class. -/
structure ItemOut where
  now : List NullApi := []
  errors : List NullApi := []
  statics : List NullApi := []
  fns : List FuncToConvert := []
  receivers : List (Ident × QName) := []

/-- The name under which a marker is filed: where the item's own name is built in, a suffix is added. -/
def markerName (id : Ident) : Ident := if conflictsWithBuiltInType ⟨[], id⟩ then id ++ "_autocxx_error" else id

/-- The marker which explains why an item has no binding. -/
def markerFor (ns : List String) (id : Ident) (e : Err) : NullApi :=
  .ignoredItem ⟨⟨ns, markerName id⟩, none⟩ e
    (some (if conflictsWithBuiltInType ⟨[], id⟩ then .sanitizedItem (id ++ "_autocxx_error") else .item id))

/-- The class recorded last for a function. -/
def lastReceiver (l : List (Ident × QName)) (id : Ident) : Option QName :=
  (l.reverse.find? fun e => e.1 = id).map (·.2)

/-- A function with its class. -/
def fnApi (ns : List String) (l : List (Ident × QName)) (f : FuncToConvert) : NullApi :=
  .function ⟨⟨ns, f.ident⟩, f.originalName⟩ { f with selfTy := lastReceiver l f.ident } ()

/-- All APIs of a module, in order. -/
def moduleApis (ns : List String) (outs : List ItemOut) : List NullApi :=
  outs.flatMap (·.now) ++ outs.flatMap (·.errors) ++ outs.flatMap (·.statics) ++
    (outs.flatMap (·.fns)).map (fnApi ns (outs.flatMap (·.receivers)))

/-- A C++ function as bindgen describes it: the parts of its declaration, and what the callbacks said of it. -/
def FnFound (cb : Callbacks) (ns : List String) (b : BindgenFn) (f : FuncToConvert) : Prop :=
  f.ident = stripBindgenSuffix b.ident ∧ f.inputs = b.inputs ∧ f.output = b.output ∧ f.variadic = b.variadic ∧
  cb.virtualnessOf ⟨ns, f.ident⟩ = some f.virtualness ∧ cb.cppVisibilityOf ⟨ns, f.ident⟩ = some f.cppVis ∧
  cb.specialMemberOf ⟨ns, f.ident⟩ = some f.specialMember ∧ cb.originalName ⟨ns, f.ident⟩ = some f.originalName ∧
  cb.explicitnessOf ⟨ns, f.ident⟩ = some f.isDeleted ∧
  f.provenance = .bindgen ∧ f.selfTy = none ∧ f.synthesizedThisType = none ∧ f.addToTrait = none ∧ f.syntheticCpp = none

/-- What becomes of the items of an `extern "C"` block: functions are kept, global variables leave a marker. -/
inductive ForeignFate (cb : Callbacks) (ns : List String) :
    List BindgenForeign → List FuncToConvert → List NullApi → Prop
  | nil : ForeignFate cb ns [] [] []
  | fn {b f l fs st} : FnFound cb ns b f → ForeignFate cb ns l fs st → ForeignFate cb ns (.fn b :: l) (f :: fs) st
  | static {id l fs st} : ForeignFate cb ns l fs st →
      ForeignFate cb ns (.static id :: l) fs (markerFor ns id (.other "StaticData") :: st)
  | other {l fs st} : ForeignFate cb ns l fs st → ForeignFate cb ns (.other :: l) fs st

/-- The functions an `impl` block tells of: each method is taken for the function it calls, or else for the function of
its own name. -/
def implEvidence (q : QName) (items : List BindgenImplItem) : List (Ident × QName) := items.filterMap fun
  | .fn _ (.call (s :: _) :: _) => some (stripBindgenSuffix s, q)
  | .fn id _ => some (stripBindgenSuffix id, q)
  | .other => none

/-- A `use` item spelt out: the segments before its end, and its end. -/
inductive UseIs : BindgenUse → List String → BindgenUse → Prop
  | name (id) : UseIs (.name id) [] (.name id)
  | rename (a b) : UseIs (.rename a b) [] (.rename a b)
  | other : UseIs .other [] .other
  | path {id t l e} : UseIs t l e → UseIs (.path id t) (id :: l) e

/-- The user maps this name to a Rust type, or it is built in. -/
def MappedElsewhere (cfg : Config) (q : QName) : Prop :=
  isKnownSubstituteType q = true ∨ isKnownType q = true ∨ (q.ns = [] ∧ cfg.isRustType q.name = true)

/-- The reason bindgen's notes give for not using a type. -/
def AttrError (cb : Callbacks) (q : QName) (e : Option ErrWithCtx) : Prop :=
  ∃ d v, cb.discardsOf q = some d ∧ cb.cppVisibilityOf q = some v ∧
    e = if d = true then some ⟨.unusedTemplateParam, some (.newForItem q.name)⟩
        else if v ≠ .pub then some ⟨.nonPublicNestedType, some (.newForItem q.name)⟩
        else none

/-- Whether bindgen's struct stands for a class which was declared only: it has a field `_unused`, or has a field
`_address` and may not be used. -/
def DeclaredNotDefined (fields : List (Ident × Bool × Ty)) (e : Option ErrWithCtx) : Prop :=
  (∃ f ∈ fields, f.1 = "_unused") ∨ ((∃ f ∈ fields, f.1 = "_address") ∧ e ≠ none)

mutual
/-- What becomes of an item of bindgen's in the module for the namespace. -/
inductive ItemFate (cfg : Config) (cb : Callbacks) : List String → BindgenItem → ItemOut → Prop
  /-- A table of virtual functions is left out. -/
  | vtable {ns} (stem) {fs gs} : ItemFate cfg cb ns (.struct (stem ++ "__bindgen_vtable") fs gs) {}
  /-- A struct whose name cannot be used. -/
  | structName {ns id fs gs e} : (∀ stem, id ≠ stem ++ "__bindgen_vtable") → validateIdentOkForCxx id = .bad e →
      ItemFate cfg cb ns (.struct id fs gs) { errors := [markerFor ns id (.invalidIdent e)] }
  /-- A struct which is something else in Rust. -/
  | structMapped {ns id fs gs} {o : Option String} {e} : (∀ stem, id ≠ stem ++ "__bindgen_vtable") →
      validateIdentOkForCxx id = .ok → cb.originalName ⟨ns, id⟩ = some o → AttrError cb ⟨ns, id⟩ e →
      MappedElsewhere cfg ⟨ns, id⟩ → ItemFate cfg cb ns (.struct id fs gs) {}
  /-- A blocked struct. -/
  | structBlocked {ns id fs gs} {o : Option String} {e} : (∀ stem, id ≠ stem ++ "__bindgen_vtable") →
      validateIdentOkForCxx id = .ok → cb.originalName ⟨ns, id⟩ = some o → AttrError cb ⟨ns, id⟩ e →
      ¬ MappedElsewhere cfg ⟨ns, id⟩ → QName.toCppName ⟨ns, id⟩ ∈ cfg.blocklist → ItemFate cfg cb ns (.struct id fs gs) {}
  /-- A class which is declared but not defined. -/
  | forward {ns id fs gs o e} : (∀ stem, id ≠ stem ++ "__bindgen_vtable") → validateIdentOkForCxx id = .ok →
      cb.originalName ⟨ns, id⟩ = some o → AttrError cb ⟨ns, id⟩ e → ¬ MappedElsewhere cfg ⟨ns, id⟩ →
      QName.toCppName ⟨ns, id⟩ ∉ cfg.blocklist → DeclaredNotDefined fs e →
      ItemFate cfg cb ns (.struct id fs gs)
        { now := [.forwardDeclaration ⟨⟨ns, id⟩, o⟩
            (if e = none ∧ containsStr (o.getD id) "::" = true then
              some ⟨.forwardDeclaredNestedType, some (.newForItem id)⟩ else e)] }
  /-- Any other struct. -/
  | struct {ns id fs gs o e} : (∀ stem, id ≠ stem ++ "__bindgen_vtable") → validateIdentOkForCxx id = .ok →
      cb.originalName ⟨ns, id⟩ = some o → AttrError cb ⟨ns, id⟩ e → ¬ MappedElsewhere cfg ⟨ns, id⟩ →
      QName.toCppName ⟨ns, id⟩ ∉ cfg.blocklist → ¬ DeclaredNotDefined fs e →
      ItemFate cfg cb ns (.struct id fs gs)
        { now := [.struct ⟨⟨ns, id⟩, o⟩
            { fields := fs, generics := gs
              hasRvalueReferenceFields := fs.any fun f => typeIsReference f.2.2 true } ()] }
  | enumName {ns id item e} : validateIdentOkForCxx id = .bad e →
      ItemFate cfg cb ns (.enum id item) { errors := [markerFor ns id (.invalidIdent e)] }
  | enumBlocked {ns id item} {o : Option String} : validateIdentOkForCxx id = .ok → cb.originalName ⟨ns, id⟩ = some o →
      QName.toCppName ⟨ns, id⟩ ∈ cfg.blocklist → ItemFate cfg cb ns (.enum id item) {}
  | enum {ns id item o} : validateIdentOkForCxx id = .ok → cb.originalName ⟨ns, id⟩ = some o →
      QName.toCppName ⟨ns, id⟩ ∉ cfg.blocklist →
      ItemFate cfg cb ns (.enum id item) { now := [.enum ⟨⟨ns, id⟩, o⟩ item] }
  | foreign {ns items fs st} : ForeignFate cb ns items fs st →
      ItemFate cfg cb ns (.foreignMod items) { fns := fs, statics := st }
  /-- An `impl` block for a type with a name. -/
  | impl {ns segs id args items} :
      ItemFate cfg cb ns (.impl (.path (segs ++ [id]) args) items) { receivers := implEvidence ⟨ns, id⟩ items }
  | implOther {ns ty items} : (∀ segs args, ty ≠ .path segs args) → ItemFate cfg cb ns (.impl ty items) {}
  /-- The module of a nested namespace: all its APIs. -/
  | mod {ns id items outs} : ItemsFate cfg cb (ns ++ [id]) items outs →
      ItemFate cfg cb ns (.mod id items) { now := moduleApis (ns ++ [id]) outs }
  | modDecl {ns id} : ItemFate cfg cb ns (.modDecl id) {}
  /-- A `use` item which gives nothing a new name. -/
  | usePlain {ns t segs e} : UseIs t segs e → (∀ a b, e ≠ .rename a b) → ItemFate cfg cb ns (.use t) {}
  | useChar16 {ns t segs a} : UseIs t segs (.rename a "bindgen_cchar16_t") → ItemFate cfg cb ns (.use t) {}
  /-- A type which is given the name it has. -/
  | useSelf {ns t segs a b q} : UseIs t ("self" :: "super" :: segs) (.rename a b) → b ≠ "bindgen_cchar16_t" →
      QName.ofTypePath (segs ++ [a]) = some q → q = ⟨ns, b⟩ →
      ItemFate cfg cb ns (.use t) { errors := [markerFor ns b (.infinitelyRecursiveTypedef ⟨ns, b⟩)] }
  | useRename {ns t segs a b q o} : UseIs t ("self" :: "super" :: segs) (.rename a b) → b ≠ "bindgen_cchar16_t" →
      QName.ofTypePath (segs ++ [a]) = some q → q ≠ ⟨ns, b⟩ → cb.originalName ⟨ns, b⟩ = some o →
      ItemFate cfg cb ns (.use t)
        { now := [.typedef ⟨⟨ns, b⟩, o⟩ { isUse := true, ty := .path (segs ++ [a]) [] } (some q) ()] }
  /-- A constant of an enum which cannot be used. -/
  | constBad {ns id segs last args item e} : validateIdentOkForCxx last = .bad e →
      ItemFate cfg cb ns (.const id (.path (segs ++ [last]) args) item) {}
  | const {ns id ty item o} : cb.originalName ⟨ns, id⟩ = some o →
      (∀ segs last args, ty = .path (segs ++ [last]) args → validateIdentOkForCxx last = .ok) →
      ItemFate cfg cb ns (.const id ty item) { now := [.const ⟨⟨ns, id⟩, o⟩ item] }
  | type {ns id ty gs o} : cb.originalName ⟨ns, id⟩ = some o →
      ItemFate cfg cb ns (.type id ty gs) { now := [.typedef ⟨⟨ns, id⟩, o⟩ { ty := ty, generics := gs } none ()] }
  /-- Anything else leaves nothing. -/
  | other {ns} : ItemFate cfg cb ns .other {}
/-- What becomes of the items of a module. -/
inductive ItemsFate (cfg : Config) (cb : Callbacks) : List String → List BindgenItem → List ItemOut → Prop
  | nil {ns} : ItemsFate cfg cb ns [] []
  | cons {ns i l o os} : ItemFate cfg cb ns i o → ItemsFate cfg cb ns l os → ItemsFate cfg cb ns (i :: l) (o :: os)
end

/-! ## The parser follows the specification -/

/-- Taking in what an item leaves. -/
def ModState.absorb (s : ModState) (o : ItemOut) : ModState where
  apis := s.apis.extend o.now
  more := s.more.extend o.errors
  foreign :=
    { funcs := s.foreign.funcs ++ o.fns
      receivers := o.receivers.foldl (fun m e => m.insert e.1 e.2) s.foreign.receivers
      ignored := s.foreign.ignored.extend (ApiVec.extend {} o.statics).apis }

theorem absorb_now (s : ModState) (l : List NullApi) :
    s.absorb { now := l } = { s with apis := s.apis.extend l } := by
  obtain ⟨a, ⟨f, r, i⟩, m⟩ := s
  simp [ModState.absorb, ApiVec.extend]

theorem absorb_nothing (s : ModState) : s.absorb {} = s := absorb_now s []

theorem absorb_errors (s : ModState) (l : List NullApi) :
    s.absorb { errors := l } = { s with more := s.more.extend l } := by
  obtain ⟨a, ⟨f, r, i⟩, m⟩ := s
  simp [ModState.absorb, ApiVec.extend]

theorem absorb_receivers (s : ModState) (l : List (Ident × QName)) :
    s.absorb { receivers := l } =
      { s with foreign := { s.foreign with receivers := l.foldl (fun m e => m.insert e.1 e.2) s.foreign.receivers } } := by
  obtain ⟨a, ⟨f, r, i⟩, m⟩ := s
  simp [ModState.absorb, ApiVec.extend]

theorem take_ok (ns : List String) (s : ModState) (l : List NullApi) : s.take ns (.ok l) = s.absorb { now := l } :=
  (absorb_now s l).symm

theorem newForItem_eq (id : Ident) : ErrorContext.newForItem id =
    if conflictsWithBuiltInType ⟨[], id⟩ then .sanitizedItem (id ++ "_autocxx_error") else .item id := by
  unfold ErrorContext.newForItem sanitizeErrorIdent
  by_cases h : conflictsWithBuiltInType ⟨[], id⟩ = true <;> simp [h]

theorem newForItem_filed (id : Ident) : (ErrorContext.newForItem id).filedUnder = markerName id := by
  rw [newForItem_eq, markerName]
  split <;> rfl

theorem report_marker (ns : List String) (v : ApiVec Unit Unit Unit) (id : Ident) (e : Err) :
    (reportAnyError (α := Unit) ns v (.error ⟨e, some (.newForItem id)⟩)).1 = v.push (markerFor ns id e) := by
  show v.push (.ignoredItem (ApiName.ofQName ⟨ns, (ErrorContext.newForItem id).filedUnder⟩) e
    (some (ErrorContext.newForItem id))) = _
  rw [newForItem_filed, newForItem_eq]
  rfl

theorem take_marker (ns : List String) (s : ModState) (id : Ident) (e : Err) :
    s.take ns (.error ⟨e, some (.newForItem id)⟩) = s.absorb { errors := [markerFor ns id e] } := by
  rw [absorb_errors]
  simp only [ModState.take, report_marker]
  rfl

/-! ### Foreign items -/

theorem foreignFn_iff (cb : Callbacks) (ns : List String) (b : BindgenFn) (f : FuncToConvert) :
    foreignFn cb ns b = some f ↔ FnFound cb ns b f := by
  unfold foreignFn FnFound
  constructor
  · intro h
    dsimp only at h
    split at h
    · cases h
      simp [*]
    · cases h
  · obtain ⟨_, _, _, _, _, _, _, _, _, _, _, _, _, _⟩ := f
    dsimp only
    rintro ⟨rfl, rfl, rfl, rfl, h1, h2, h3, h4, h5, rfl, rfl, rfl, rfl, rfl⟩
    simp only [h1, h2, h3, h4, h5]

theorem foreignItems_iff (cb : Callbacks) (ns : List String) (l : List BindgenForeign) (fs : List FuncToConvert)
    (extra : ApiVec Unit Unit Unit) (r : List FuncToConvert × ApiVec Unit Unit Unit) :
    foreignItems cb ns l fs extra = some r ↔
      ∃ gs st, ForeignFate cb ns l gs st ∧ r = (fs ++ gs, extra.extend st) := by
  induction l generalizing fs extra with
  | nil =>
    constructor
    · intro h; cases h; exact ⟨[], [], .nil, by simp [ApiVec.extend]⟩
    · rintro ⟨gs, st, h, rfl⟩; cases h; simp [foreignItems, ApiVec.extend]
  | cons i l ih =>
    cases i with
    | fn b =>
      constructor
      · intro h
        unfold foreignItems at h
        split at h
        · cases h
        · rename_i f hf
          obtain ⟨gs, st, hg, rfl⟩ := (ih _ _).1 h
          exact ⟨f :: gs, st, .fn ((foreignFn_iff ..).1 hf) hg, by simp⟩
      · rintro ⟨gs, st, h, rfl⟩
        cases h with
        | fn hf hg =>
          unfold foreignItems
          rw [(foreignFn_iff ..).2 hf]
          exact (ih _ _).2 ⟨_, _, hg, by simp⟩
    | static id =>
      unfold foreignItems
      rw [report_marker, ih]
      constructor
      · rintro ⟨gs, st, hg, rfl⟩
        exact ⟨gs, _, .static hg, rfl⟩
      · rintro ⟨gs, st, h, rfl⟩
        cases h with
        | static hg => exact ⟨_, _, hg, rfl⟩
    | other =>
      have e : (reportAnyError (α := Unit) ns extra (.error ⟨.other "UnexpectedForeignItem", none⟩)).1 = extra := rfl
      unfold foreignItems
      rw [e, ih]
      constructor
      · rintro ⟨gs, st, hg, rfl⟩
        exact ⟨gs, st, .other hg, rfl⟩
      · rintro ⟨gs, st, h, rfl⟩
        cases h with
        | other hg => exact ⟨_, _, hg, rfl⟩

theorem noteReceivers_eq (q : QName) (m : AMap Ident QName) (l : List BindgenImplItem) :
    noteReceivers q m l = (implEvidence q l).foldl (fun m e => m.insert e.1 e.2) m := by
  induction l generalizing m with
  | nil => rfl
  | cons i l ih =>
    cases i with
    | other => exact ih m
    | fn id body =>
      unfold noteReceivers
      rw [ih]
      unfold effectiveFunName
      match body with
      | [] => rfl
      | .other :: _ => rfl
      | .call [] :: _ => rfl
      | .call (s :: _) :: _ => rfl

/-! ### Use items -/

theorem useIs_exists (t : BindgenUse) : ∃ segs e, UseIs t segs e ∧ (∀ id t', e ≠ .path id t') := by
  induction t with
  | path id t ih =>
    obtain ⟨segs, e, h, he⟩ := ih
    exact ⟨_, _, .path h, he⟩
  | name id => exact ⟨_, _, .name id, by nofun⟩
  | rename a b => exact ⟨_, _, .rename a b, by nofun⟩
  | other => exact ⟨_, _, .other, by nofun⟩

theorem UseIs.unique {t : BindgenUse} {s s' : List String} {e e' : BindgenUse} (h : UseIs t s e) (h' : UseIs t s' e') :
    s = s' ∧ e = e' := by
  induction h generalizing s' with
  | name => cases h'; exact ⟨rfl, rfl⟩
  | rename => cases h'; exact ⟨rfl, rfl⟩
  | other => cases h'; exact ⟨rfl, rfl⟩
  | path _ ih =>
    cases h' with
    | path h' =>
      obtain ⟨rfl, rfl⟩ := ih h'
      exact ⟨rfl, rfl⟩

theorem parseUse_path {cb : Callbacks} {ns : List String} {t e : BindgenUse} {l : List String} (h : UseIs t l e)
    (segs : List String) : parseUse cb ns segs t = parseUse cb ns (segs ++ l) e := by
  induction h generalizing segs with
  | path h ih =>
    rw [parseUse, ih]
    simp
  | name => simp
  | rename => simp
  | other => simp

/-! ### Items -/

theorem vtable_iff (id : Ident) :
    (stripSuffix id "__bindgen_vtable").isSome = true ↔ ∃ stem, id = stem ++ "__bindgen_vtable" := by
  rw [Option.isSome_iff_exists]
  exact exists_congr fun stem => stripSuffix_eq_some

theorem fatalAttrs_iff (cb : Callbacks) (q : QName) (e : Option ErrWithCtx) :
    fatalAttrs cb q = some e ↔ AttrError cb q e := by
  unfold fatalAttrs AttrError checkForFatalAttrs
  cases h1 : cb.discardsOf q with
  | none => simp
  | some d =>
    cases h2 : cb.cppVisibilityOf q with
    | none => simp
    | some v =>
      constructor
      · intro h
        refine ⟨d, v, rfl, rfl, ?_⟩
        dsimp only at h
        cases d <;> cases v <;> first | (cases h; rfl)
      · rintro ⟨_, _, ⟨⟩, ⟨⟩, rfl⟩
        cases d <;> cases v <;> rfl

theorem apiNameQualified_error (cb : Callbacks) (ns : List String) (id : Ident) (e : ErrWithCtx) :
    apiNameQualified cb ns id = some (.error e) ↔
      ∃ b, validateIdentOkForCxx id = .bad b ∧ e = ⟨.invalidIdent b, some (.newForItem id)⟩ := by
  unfold apiNameQualified
  cases h : validateIdentOkForCxx id with
  | panic => simp
  | bad b =>
    simp only [Option.some.injEq, Except.error.injEq, Checked.bad.injEq]
    exact ⟨fun h => ⟨b, rfl, h.symm⟩, by rintro ⟨_, rfl, rfl⟩; rfl⟩
  | ok => simp

theorem apiNameOf_iff (cb : Callbacks) (ns : List String) (id : Ident) (n : ApiName) :
    apiNameOf cb ns id = some n ↔ ∃ o, cb.originalName ⟨ns, id⟩ = some o ∧ n = ⟨⟨ns, id⟩, o⟩ := by
  unfold apiNameOf
  rw [Option.map_eq_some_iff]
  exact exists_congr fun o => and_congr Iff.rfl eq_comm

theorem apiNameQualified_ok (cb : Callbacks) (ns : List String) (id : Ident) (n : ApiName) :
    apiNameQualified cb ns id = some (.ok n) ↔
      validateIdentOkForCxx id = .ok ∧ ∃ o, cb.originalName ⟨ns, id⟩ = some o ∧ n = ⟨⟨ns, id⟩, o⟩ := by
  unfold apiNameQualified
  cases h : validateIdentOkForCxx id with
  | panic => simp
  | bad b => simp
  | ok => simp [← apiNameOf_iff]

theorem declaredOnly_iff (fields : List (Ident × Bool × Ty)) (e : Option ErrWithCtx) :
    (spotField fields "_unused" = true ∨ spotField fields "_address" = true ∧ e.isSome = true) ↔
      DeclaredNotDefined fields e := by
  unfold DeclaredNotDefined spotField
  rw [List.any_eq_true, List.any_eq_true]
  simp only [decide_eq_true_eq, Option.isSome_iff_ne_none]

/-- A name which can be looked up can be looked up for everything. -/
theorem lookups_total {cb : Callbacks} {q : QName} {o : Option String} (h : cb.originalName q = some o) (q' : QName) :
    (∃ o, cb.originalName q' = some o) ∧ ∃ e, AttrError cb q' e := by
  cases hr : cb.rootMod with
  | none => simp [Callbacks.originalName, Callbacks.idByName, hr] at h
  | some r =>
    refine ⟨⟨_, by simp [Callbacks.originalName, Callbacks.idByName, hr]; rfl⟩, _, _, _,
      by simp [Callbacks.discardsOf, Callbacks.idByName, hr]; rfl,
      by simp [Callbacks.cppVisibilityOf, Callbacks.idByName, hr]; rfl, rfl⟩

/-- The struct has a usable name and is looked into. -/
theorem parseStruct_named {cfg : Config} {cb : Callbacks} {ns : List String} {id : Ident}
    {o : Option String} {e : Option ErrWithCtx} (hv : ∀ stem, id ≠ stem ++ "__bindgen_vtable")
    (hn : validateIdentOkForCxx id = .ok) (ho : cb.originalName ⟨ns, id⟩ = some o) (he : AttrError cb ⟨ns, id⟩ e)
    (fs : List (Ident × Bool × Ty)) (gs : List Ident) :
    parseStruct cfg cb ns id fs gs = some (.ok (
      if isKnownSubstituteType ⟨ns, id⟩ then []
      else match structApi cfg ns id fs gs ⟨⟨ns, id⟩, o⟩ e with
        | none => []
        | some a => unlessBlocked cfg a)) := by
  unfold parseStruct
  rw [if_neg (fun h => by obtain ⟨stem, hs⟩ := (vtable_iff id).1 h; exact hv stem hs),
    (apiNameQualified_ok ..).2 ⟨hn, o, ho, rfl⟩]
  dsimp only
  split
  · rfl
  · rw [(fatalAttrs_iff ..).2 he]
    simp only [Option.map_some]
    cases structApi cfg ns id fs gs ⟨⟨ns, id⟩, o⟩ e <;> rfl

theorem structApi_mapped {cfg : Config} {ns : List String} {id : Ident} {o : Option String} {e : Option ErrWithCtx}
    (h : MappedElsewhere cfg ⟨ns, id⟩) (fs : List (Ident × Bool × Ty)) (gs : List Ident) :
    (if isKnownSubstituteType ⟨ns, id⟩ then []
      else match structApi cfg ns id fs gs ⟨⟨ns, id⟩, o⟩ e with
        | none => []
        | some a => unlessBlocked cfg a) = [] := by
  rcases h with h | h | h
  · rw [if_pos h]
  · rw [show structApi cfg ns id fs gs ⟨⟨ns, id⟩, o⟩ e = none from if_pos (Or.inr h)]
    simp
  · rw [show structApi cfg ns id fs gs ⟨⟨ns, id⟩, o⟩ e = none from if_pos (Or.inl h)]
    simp

theorem structApi_unmapped {cfg : Config} {ns : List String} {id : Ident} {o : Option String} {e : Option ErrWithCtx}
    (h : ¬ MappedElsewhere cfg ⟨ns, id⟩) (fs : List (Ident × Bool × Ty)) (gs : List Ident) :
    ∃ a : NullApi, a.name = ⟨ns, id⟩ ∧
      (DeclaredNotDefined fs e → a = .forwardDeclaration ⟨⟨ns, id⟩, o⟩
            (if e = none ∧ containsStr (o.getD id) "::" = true then
              some ⟨.forwardDeclaredNestedType, some (.newForItem id)⟩ else e)) ∧
      (¬ DeclaredNotDefined fs e → a = .struct ⟨⟨ns, id⟩, o⟩
            { fields := fs, generics := gs
              hasRvalueReferenceFields := fs.any fun f => typeIsReference f.2.2 true } ()) ∧
    (if isKnownSubstituteType ⟨ns, id⟩ then []
      else match structApi cfg ns id fs gs ⟨⟨ns, id⟩, o⟩ e with
        | none => []
        | some a => unlessBlocked cfg a) = unlessBlocked cfg a := by
  have h1 : ¬ isKnownSubstituteType ⟨ns, id⟩ = true := fun hh => h (Or.inl hh)
  have h2 : ¬ ((ns = [] ∧ cfg.isRustType id = true) ∨ isKnownType (⟨ns, id⟩ : QName) = true) := by
    rintro (hh | hh)
    · exact h (Or.inr (Or.inr hh))
    · exact h (Or.inr (Or.inl hh))
  rw [if_neg h1]
  unfold structApi
  rw [if_neg h2]
  by_cases hd : DeclaredNotDefined fs e
  · rw [if_pos ((declaredOnly_iff fs e).2 hd)]
    exact ⟨_, rfl, fun _ => rfl, fun hh => absurd hd hh, rfl⟩
  · rw [if_neg (fun hh => hd ((declaredOnly_iff fs e).1 hh))]
    exact ⟨_, rfl, fun hh => absurd hh hd, fun _ => rfl, rfl⟩

theorem parseStruct_iff (cfg : Config) (cb : Callbacks) (ns : List String) (id : Ident)
    (fs : List (Ident × Bool × Ty)) (gs : List Ident) (s t : ModState) :
    (parseStruct cfg cb ns id fs gs).map (s.take ns) = some t ↔
      ∃ out, ItemFate cfg cb ns (.struct id fs gs) out ∧ t = s.absorb out := by
  constructor
  · intro h
    by_cases hv : ∃ stem, id = stem ++ "__bindgen_vtable"
    · obtain ⟨stem, rfl⟩ := hv
      unfold parseStruct at h
      rw [if_pos ((vtable_iff _).2 ⟨stem, rfl⟩)] at h
      cases h
      exact ⟨_, .vtable stem, take_ok ..⟩
    · push Not at hv
      cases hq : apiNameQualified cb ns id with
      | none =>
        unfold parseStruct at h
        rw [if_neg (fun h => by obtain ⟨stem, hs⟩ := (vtable_iff id).1 h; exact hv stem hs), hq] at h
        cases h
      | some r =>
        cases r with
        | error e =>
          unfold parseStruct at h
          rw [if_neg (fun h => by obtain ⟨stem, hs⟩ := (vtable_iff id).1 h; exact hv stem hs), hq] at h
          obtain ⟨b, hb, rfl⟩ := (apiNameQualified_error ..).1 hq
          cases h
          exact ⟨_, .structName hv hb, take_marker ..⟩
        | ok n =>
          obtain ⟨hn, o, ho, rfl⟩ := (apiNameQualified_ok ..).1 hq
          obtain ⟨-, e, he⟩ := lookups_total ho ⟨ns, id⟩
          rw [parseStruct_named hv hn ho he] at h
          simp only [Option.map_some, Option.some.injEq] at h
          by_cases hm : MappedElsewhere cfg ⟨ns, id⟩
          · rw [structApi_mapped hm] at h
            exact ⟨_, .structMapped hv hn ho he hm, h ▸ take_ok ..⟩
          · obtain ⟨a, ha, h1, h2, h3⟩ := structApi_unmapped (o := o) (e := e) hm fs gs
            rw [h3] at h
            unfold unlessBlocked Config.isOnBlocklist at h
            rw [ha] at h
            by_cases hb : QName.toCppName ⟨ns, id⟩ ∈ cfg.blocklist
            · simp only [hb, decide_true, if_true] at h
              exact ⟨_, .structBlocked hv hn ho he hm hb, h ▸ take_ok ..⟩
            · simp only [hb, decide_false, Bool.false_eq_true, if_false] at h
              by_cases hd : DeclaredNotDefined fs e
              · obtain rfl := h1 hd
                exact ⟨_, .forward hv hn ho he hm hb hd, h ▸ take_ok ..⟩
              · obtain rfl := h2 hd
                exact ⟨_, .struct hv hn ho he hm hb hd, h ▸ take_ok ..⟩
  · rintro ⟨out, h, rfl⟩
    cases h with
    | vtable stem =>
      unfold parseStruct
      rw [if_pos ((vtable_iff _).2 ⟨stem, rfl⟩), absorb_nothing]
      rfl
    | structName hv hb =>
      unfold parseStruct
      rw [if_neg (fun h => by obtain ⟨stem, hs⟩ := (vtable_iff id).1 h; exact hv stem hs),
        (apiNameQualified_error ..).2 ⟨_, hb, rfl⟩]
      simp only [Option.map_some]
      rw [take_marker]
    | structMapped hv hn ho he hm =>
      rw [parseStruct_named hv hn ho he, structApi_mapped hm, absorb_nothing]
      rfl
    | structBlocked hv hn ho he hm hb =>
      obtain ⟨a, ha, h1, h2, h3⟩ := structApi_unmapped hm fs gs
      rw [parseStruct_named hv hn ho he, h3, absorb_nothing]
      unfold unlessBlocked Config.isOnBlocklist
      rw [ha]
      simp only [hb, decide_true, if_true]
      rfl
    | forward hv hn ho he hm hb hd =>
      obtain ⟨a, ha, h1, h2, h3⟩ := structApi_unmapped hm fs gs
      rw [parseStruct_named hv hn ho he, h3, ← take_ok ns, ← h1 hd]
      unfold unlessBlocked Config.isOnBlocklist
      rw [ha]
      simp only [hb, decide_false, Bool.false_eq_true, if_false]
      rfl
    | struct hv hn ho he hm hb hd =>
      obtain ⟨a, ha, h1, h2, h3⟩ := structApi_unmapped hm fs gs
      rw [parseStruct_named hv hn ho he, h3, ← take_ok ns, ← h2 hd]
      unfold unlessBlocked Config.isOnBlocklist
      rw [ha]
      simp only [hb, decide_false, Bool.false_eq_true, if_false]
      rfl

theorem parseEnum_iff (cfg : Config) (cb : Callbacks) (ns : List String) (id : Ident) (item : String) (s t : ModState) :
    (parseEnum cfg cb ns id item).map (s.take ns) = some t ↔
      ∃ out, ItemFate cfg cb ns (.enum id item) out ∧ t = s.absorb out := by
  constructor
  · intro h
    unfold parseEnum at h
    cases hq : apiNameQualified cb ns id with
    | none => rw [hq] at h; cases h
    | some r =>
      rw [hq] at h
      cases r with
      | error e =>
        obtain ⟨b, hb, rfl⟩ := (apiNameQualified_error ..).1 hq
        cases h
        exact ⟨_, .enumName hb, take_marker ..⟩
      | ok n =>
        obtain ⟨hn, o, ho, rfl⟩ := (apiNameQualified_ok ..).1 hq
        simp only [Option.map_some, Option.some.injEq, unlessBlocked, Config.isOnBlocklist, Api.name, Api.nameInfo] at h
        by_cases hb : QName.toCppName ⟨ns, id⟩ ∈ cfg.blocklist
        · simp only [hb, decide_true, if_true] at h
          exact ⟨_, .enumBlocked hn ho hb, h ▸ take_ok ..⟩
        · simp only [hb, decide_false, Bool.false_eq_true, if_false] at h
          exact ⟨_, .enum hn ho hb, h ▸ take_ok ..⟩
  · rintro ⟨out, h, rfl⟩
    unfold parseEnum
    cases h with
    | enumName hb =>
      rw [(apiNameQualified_error ..).2 ⟨_, hb, rfl⟩]
      simp only [Option.map_some]
      rw [take_marker]
    | enumBlocked hn ho hb =>
      rw [(apiNameQualified_ok ..).2 ⟨hn, _, ho, rfl⟩]
      simp only [Option.map_some, unlessBlocked, Config.isOnBlocklist, Api.name, Api.nameInfo, hb, decide_true, if_true]
      rw [absorb_nothing]
      rfl
    | enum hn ho hb =>
      rw [(apiNameQualified_ok ..).2 ⟨hn, _, ho, rfl⟩]
      simp only [Option.map_some, unlessBlocked, Config.isOnBlocklist, Api.name, Api.nameInfo, hb, decide_false,
        Bool.false_eq_true, if_false]
      rw [take_ok]

theorem parseUse_rename (cb : Callbacks) (ns rest : List String) (old new : Ident) (h : new ≠ "bindgen_cchar16_t") :
    parseUse cb ns ("self" :: "super" :: rest) (.rename old new) =
      match QName.ofTypePath (rest ++ [old]) with
      | none => none
      | some oldName =>
        if (⟨ns, new⟩ : QName) = oldName then
          some (.error ⟨.infinitelyRecursiveTypedef ⟨ns, new⟩, some (.newForItem new)⟩)
        else
          (apiNameOf cb ns new).map fun name =>
            .ok [.typedef name { isUse := true, ty := .path (rest ++ [old]) [] } (some oldName) ()] := by
  unfold parseUse
  rw [if_neg h]
  rfl

theorem parseUse_iff (cfg : Config) (cb : Callbacks) (ns : List String) (u : BindgenUse) (s t : ModState) :
    (parseUse cb ns [] u).map (s.take ns) = some t ↔
      ∃ out, ItemFate cfg cb ns (.use u) out ∧ t = s.absorb out := by
  obtain ⟨segs, e, hu, he⟩ := useIs_exists u
  rw [parseUse_path hu, List.nil_append]
  constructor
  · intro h
    cases e with
    | path id t' => exact absurd rfl (he id t')
    | name id => cases h; exact ⟨_, .usePlain hu (by nofun), take_ok ..⟩
    | other => cases h; exact ⟨_, .usePlain hu (by nofun), take_ok ..⟩
    | rename a b =>
      unfold parseUse at h
      by_cases hb : b = "bindgen_cchar16_t"
      · rw [if_pos hb] at h
        subst hb
        cases h
        exact ⟨_, .useChar16 hu, take_ok ..⟩
      · rw [if_neg hb] at h
        split at h
        · rename_i rest
          split at h
          · cases h
          · rename_i q hq
            split at h
            · rename_i hs
              cases h
              exact ⟨_, .useSelf hu hb hq hs.symm, take_marker ..⟩
            · rename_i hs
              cases hn : apiNameOf cb ns b with
              | none => rw [hn] at h; cases h
              | some n =>
                obtain ⟨o, ho, rfl⟩ := (apiNameOf_iff ..).1 hn
                rw [hn] at h
                cases h
                exact ⟨_, .useRename hu hb hq (fun e => hs e.symm) ho, take_ok ..⟩
        · cases h
  · rintro ⟨out, h, rfl⟩
    cases h with
    | usePlain h hne =>
      obtain ⟨rfl, rfl⟩ := hu.unique h
      rw [absorb_nothing]
      cases e with
      | path id t' => exact absurd rfl (he id t')
      | name id => rfl
      | other => rfl
      | rename a b => exact absurd rfl (hne a b)
    | useChar16 h =>
      obtain ⟨rfl, rfl⟩ := hu.unique h
      rw [absorb_nothing]
      unfold parseUse
      rw [if_pos rfl]
      rfl
    | useSelf h hb hq hs =>
      obtain ⟨rfl, rfl⟩ := hu.unique h
      rw [parseUse_rename _ _ _ _ _ hb, hq]
      dsimp only
      rw [if_pos hs.symm]
      simp only [Option.map_some]
      rw [take_marker]
    | useRename h hb hq hs ho =>
      obtain ⟨rfl, rfl⟩ := hu.unique h
      rw [parseUse_rename _ _ _ _ _ hb, hq]
      dsimp only
      rw [if_neg (fun e => hs e.symm), (apiNameOf_iff ..).2 ⟨_, ho, rfl⟩]
      simp only [Option.map_some]
      rw [take_ok]

theorem parseConst_iff (cfg : Config) (cb : Callbacks) (ns : List String) (id : Ident) (ty : Ty) (item : String)
    (s t : ModState) :
    (parseConst cb ns id ty item).map (s.take ns) = some t ↔
      ∃ out, ItemFate cfg cb ns (.const id ty item) out ∧ t = s.absorb out := by
  have key : ∀ (hty : ∀ segs last args, ty = .path (segs ++ [last]) args → validateIdentOkForCxx last = .ok),
      ((apiNameOf cb ns id).map fun name => (Except.ok [.const name item] : ItemParsed)).map (s.take ns) = some t →
      ∃ out, ItemFate cfg cb ns (.const id ty item) out ∧ t = s.absorb out := by
    intro hty h
    cases hn : apiNameOf cb ns id with
    | none => rw [hn] at h; cases h
    | some n =>
      obtain ⟨o, ho, rfl⟩ := (apiNameOf_iff ..).1 hn
      rw [hn] at h
      cases h
      exact ⟨_, .const ho hty, take_ok ..⟩
  constructor
  · intro h
    cases ty with
    | path segs args =>
      rcases List.eq_nil_or_concat segs with rfl | ⟨l, last, rfl⟩
      · refine key ?_ h
        intro segs last args' e
        have := (Ty.path.inj e).1
        simp at this
      · simp only [List.concat_eq_append] at h key ⊢
        simp only [parseConst, List.getLast?_append, List.getLast?_singleton, Option.some_or] at h
        cases hl : validateIdentOkForCxx last with
        | panic => rw [hl] at h; cases h
        | bad b =>
          rw [hl] at h
          cases h
          exact ⟨_, .constBad hl, take_ok ..⟩
        | ok =>
          rw [hl] at h
          refine key ?_ h
          intro segs last' args' e
          have := (Ty.path.inj e).1
          rw [List.append_inj_right' this rfl |> List.cons.inj |>.1] at hl
          exact hl
    | _ => exact key (by nofun) h
  · rintro ⟨out, h, rfl⟩
    cases h with
    | constBad hl =>
      simp only [parseConst, List.getLast?_append, List.getLast?_singleton, Option.some_or, hl]
      rw [absorb_nothing]
      rfl
    | @const _ _ _ _ o ho hty =>
      have : parseConst cb ns id ty item = some (.ok [.const ⟨⟨ns, id⟩, o⟩ item]) := by
        have hn := (apiNameOf_iff ..).2 ⟨_, ho, rfl⟩
        cases ty with
        | path segs args =>
          rcases List.eq_nil_or_concat segs with rfl | ⟨l, last, rfl⟩
          · simp [parseConst, hn]
          · simp only [List.concat_eq_append] at hty ⊢
            simp only [parseConst, List.getLast?_append, List.getLast?_singleton, Option.some_or,
              hty l last args rfl, hn, Option.map_some]
        | _ => simp [parseConst, hn]
      rw [this]
      simp only [Option.map_some]
      rw [take_ok]

theorem parseType_iff (cfg : Config) (cb : Callbacks) (ns : List String) (id : Ident) (ty : Ty) (gs : List Ident)
    (s t : ModState) :
    (parseType cb ns id ty gs).map (s.take ns) = some t ↔
      ∃ out, ItemFate cfg cb ns (.type id ty gs) out ∧ t = s.absorb out := by
  constructor
  · intro h
    unfold parseType at h
    cases hn : apiNameOf cb ns id with
    | none => rw [hn] at h; cases h
    | some n =>
      obtain ⟨o, ho, rfl⟩ := (apiNameOf_iff ..).1 hn
      rw [hn] at h
      cases h
      exact ⟨_, .type ho, take_ok ..⟩
  · rintro ⟨out, h, rfl⟩
    cases h with
    | type ho =>
      unfold parseType
      rw [(apiNameOf_iff ..).2 ⟨_, ho, rfl⟩]
      simp only [Option.map_some]
      rw [take_ok]

/-! ### Modules -/

theorem extend_append (v : ApiVec Unit Unit Unit) (l m : List NullApi) : v.extend (l ++ m) = (v.extend l).extend m := by
  simp [ApiVec.extend]

theorem push_known_ignored (v : ApiVec Unit Unit Unit) (hv : v.Inv) (a : NullApi) (ha : a.isIgnored = true)
    (hn : ∃ b ∈ v.apis, b.name = a.name) : v.push a = v := by
  unfold ApiVec.push
  rw [if_pos ((ApiVec.alreadyContains_iff hv _).2 hn)]
  unfold Api.discardDuplicates
  rw [if_pos ha]

/-- Markers can be collected on their own first. -/
theorem extend_markers (v : ApiVec Unit Unit Unit) (hv : v.Inv) (l : List NullApi)
    (hl : ∀ a ∈ l, a.isIgnored = true) : v.extend (ApiVec.extend {} l).apis = v.extend l := by
  rw [← List.reverse_reverse l] at hl ⊢
  generalize l.reverse = m at hl ⊢
  induction m with
  | nil => rfl
  | cons a r ih =>
    rw [List.reverse_cons] at hl ⊢
    have ih := ih (fun b hb => hl b (by simp at hb ⊢; exact Or.inl hb))
    have ha : a.isIgnored = true := hl a (by simp)
    rw [extend_append, extend_append, ← ih]
    show v.extend ((ApiVec.extend {} r.reverse).push a).apis = ApiVec.push (v.extend _) a
    have hi : (ApiVec.extend ({} : ApiVec Unit Unit Unit) r.reverse).Inv := ApiVec.extend_inv ApiVec.inv_empty _
    rw [ApiVec.push_apis hi]
    by_cases hc : ∃ b ∈ (ApiVec.extend ({} : ApiVec Unit Unit Unit) r.reverse).apis, b.name = a.name
    · rw [if_pos hc, if_pos ha, push_known_ignored _ (ApiVec.extend_inv hv _) a ha]
      obtain ⟨b, hb, hn⟩ := hc
      have := (apivec_extend_names v hv (ApiVec.extend ({} : ApiVec Unit Unit Unit) r.reverse).apis a.name).2
        (Or.inr ⟨b, hb, hn⟩)
      simpa [ApiVec.nameList] using this
    · rw [if_neg hc, extend_append]
      rfl

theorem foreign_markers {cb : Callbacks} {ns : List String} {l : List BindgenForeign} {fs : List FuncToConvert}
    {st : List NullApi} (h : ForeignFate cb ns l fs st) : ∀ a ∈ st, a.isIgnored = true := by
  induction h with
  | nil => simp
  | fn _ _ ih => exact ih
  | static _ ih =>
    intro a ha
    rcases List.mem_cons.1 ha with rfl | ha
    · rfl
    · exact ih a ha
  | other _ ih => exact ih

theorem item_markers {cfg : Config} {cb : Callbacks} {ns : List String} {i : BindgenItem} {o : ItemOut}
    (h : ItemFate cfg cb ns i o) : (∀ a ∈ o.errors, a.isIgnored = true) ∧ ∀ a ∈ o.statics, a.isIgnored = true := by
  have hm : ∀ (n : Ident) (e : Err) (a : NullApi), a ∈ [markerFor ns n e] → a.isIgnored = true := by
    intro n e a ha
    rw [List.mem_singleton.1 ha]
    rfl
  have hn : ∀ a : NullApi, a ∈ [] → a.isIgnored = true := fun a ha => absurd ha List.not_mem_nil
  cases h <;> first
    | exact ⟨hn, hn⟩
    | exact ⟨hm _ _, hn⟩
    | (rename_i h; exact ⟨hn, foreign_markers h⟩)

theorem items_markers {cfg : Config} {cb : Callbacks} {ns : List String} {l : List BindgenItem} {os : List ItemOut}
    (h : ItemsFate cfg cb ns l os) :
    ∀ o ∈ os, (∀ a ∈ o.errors, a.isIgnored = true) ∧ ∀ a ∈ o.statics, a.isIgnored = true := by
  induction l generalizing os with
  | nil => cases h; simp
  | cons i l ih =>
    cases h with
    | cons h1 h2 =>
      intro o ho
      rcases List.mem_cons.1 ho with rfl | ho
      · exact item_markers h1
      · exact ih h2 o ho

theorem get?_foldl_insert (l : List (Ident × QName)) (m : AMap Ident QName) (k : Ident) :
    (l.foldl (fun m e => m.insert e.1 e.2) m).get? k = (lastReceiver l k).or (m.get? k) := by
  unfold lastReceiver
  induction l generalizing m with
  | nil => simp
  | cons a l ih =>
    rw [List.foldl_cons, ih, List.reverse_cons, List.find?_append]
    cases h : l.reverse.find? (fun e => decide (e.1 = k)) with
    | some e => simp
    | none =>
      simp only [Option.map_none, Option.none_or, AMap.get?_insert]
      by_cases hk : a.1 = k
      · simp [hk]
      · simp [hk]

theorem absorb_all (s : ModState) (hi : s.foreign.ignored.Inv) (os : List ItemOut)
    (hm : ∀ o ∈ os, (∀ a ∈ o.errors, a.isIgnored = true) ∧ ∀ a ∈ o.statics, a.isIgnored = true) :
    os.foldl ModState.absorb s =
      { apis := s.apis.extend (os.flatMap (·.now))
        more := s.more.extend (os.flatMap (·.errors))
        foreign :=
          { funcs := s.foreign.funcs ++ os.flatMap (·.fns)
            receivers := (os.flatMap (·.receivers)).foldl (fun m e => m.insert e.1 e.2) s.foreign.receivers
            ignored := s.foreign.ignored.extend (os.flatMap (·.statics)) } } := by
  induction os generalizing s with
  | nil =>
    obtain ⟨a, ⟨f, r, i⟩, m⟩ := s
    simp [ApiVec.extend]
  | cons o os ih =>
    have h1 := hm o (by simp)
    have e : (s.absorb o).foreign.ignored = s.foreign.ignored.extend o.statics :=
      extend_markers _ hi _ h1.2
    rw [List.foldl_cons, ih _ (by rw [e]; exact ApiVec.extend_inv hi _) (fun o' ho' => hm o' (by simp [ho']))]
    rw [e]
    simp only [ModState.absorb, List.flatMap_cons, extend_append, List.foldl_append, List.append_assoc]

theorem finish_all (ns : List String) (v : ApiVec Unit Unit Unit) (hv : v.Inv) (os : List ItemOut)
    (hm : ∀ o ∈ os, (∀ a ∈ o.errors, a.isIgnored = true) ∧ ∀ a ∈ o.statics, a.isIgnored = true) :
    (os.foldl ModState.absorb { apis := v }).finish ns = v.extend (moduleApis ns os) := by
  rw [absorb_all _ ApiVec.inv_empty os hm]
  have he : ∀ a ∈ os.flatMap (·.errors), a.isIgnored = true := by
    intro a ha
    obtain ⟨o, ho, ha⟩ := List.mem_flatMap.1 ha
    exact (hm o ho).1 a ha
  have hs : ∀ a ∈ os.flatMap (·.statics), a.isIgnored = true := by
    intro a ha
    obtain ⟨o, ho, ha⟩ := List.mem_flatMap.1 ha
    exact (hm o ho).2 a ha
  unfold ModState.finish ForeignState.finished ApiVec.append moduleApis
  dsimp only
  rw [extend_markers _ (ApiVec.extend_inv hv _) _ he,
    extend_markers _ (ApiVec.extend_inv (ApiVec.extend_inv hv _) _) _ hs, extend_append, extend_append, extend_append]
  congr 1
  rw [List.nil_append]
  refine List.map_congr_left ?_
  intro f _
  unfold finishedFn fnApi
  rw [get?_foldl_insert]
  simp

mutual
theorem parseItem_iff (cfg : Config) (cb : Callbacks) (ns : List String) (s t : ModState) (hs : s.apis.Inv)
    (i : BindgenItem) :
    parseBindgenItem cfg cb ns s i = some t ↔ ∃ out, ItemFate cfg cb ns i out ∧ t = s.absorb out := by
  match i with
  | .struct id fs gs => exact parseStruct_iff ..
  | .enum id item => exact parseEnum_iff ..
  | .use u => exact parseUse_iff ..
  | .const id ty item => exact parseConst_iff ..
  | .type id ty gs => exact parseType_iff ..
  | .modDecl id =>
    constructor
    · intro h
      cases h
      exact ⟨_, .modDecl, (absorb_nothing s).symm⟩
    · rintro ⟨out, h, rfl⟩
      cases h
      rw [absorb_nothing]
      rfl
  | .other =>
    constructor
    · intro h
      cases h
      exact ⟨_, .other, (absorb_nothing s).symm⟩
    · rintro ⟨out, h, rfl⟩
      cases h
      rw [absorb_nothing]
      rfl
  | .foreignMod items =>
    simp only [parseBindgenItem, ForeignState.foreignMod, Option.map_eq_some_iff]
    constructor
    · rintro ⟨f, ⟨r, hr, rfl⟩, rfl⟩
      obtain ⟨gs, st, hg, rfl⟩ := (foreignItems_iff ..).1 hr
      refine ⟨_, .foreign hg, ?_⟩
      obtain ⟨a, ⟨f, r, i⟩, m⟩ := s
      simp [ModState.absorb, ApiVec.append, ApiVec.extend]
    · rintro ⟨out, h, rfl⟩
      cases h with
      | foreign hg =>
        refine ⟨_, ⟨_, (foreignItems_iff ..).2 ⟨_, _, hg, rfl⟩, rfl⟩, ?_⟩
        obtain ⟨a, ⟨f, r, i⟩, m⟩ := s
        simp [ModState.absorb, ApiVec.append, ApiVec.extend]
  | .impl ty items =>
    simp only [parseBindgenItem, Option.map_eq_some_iff]
    constructor
    · rintro ⟨f, hf, rfl⟩
      cases ty with
      | path segs args =>
        rcases List.eq_nil_or_concat segs with rfl | ⟨l, last, rfl⟩
        · cases hf
        · simp only [List.concat_eq_append] at hf ⊢
          simp only [ForeignState.implItems, List.getLast?_append, List.getLast?_singleton, Option.some_or] at hf
          cases hf
          exact ⟨_, .impl, by rw [absorb_receivers, noteReceivers_eq]⟩
      | _ => cases hf; exact ⟨_, .implOther (by nofun), (absorb_nothing s).symm⟩
    · rintro ⟨out, h, rfl⟩
      cases h with
      | impl =>
        refine ⟨_, by simp only [ForeignState.implItems, List.getLast?_append, List.getLast?_singleton, Option.some_or]; rfl, ?_⟩
        rw [absorb_receivers, noteReceivers_eq]
      | implOther ht =>
        cases ty with
        | path segs args => exact absurd rfl (ht segs args)
        | _ => exact ⟨_, rfl, (absorb_nothing s).symm⟩
  | .mod id items =>
    simp only [parseBindgenItem, Option.map_eq_some_iff]
    have ih := fun t' => parseModItems_iff cfg cb (ns ++ [id]) { apis := s.apis } t' hs items
    constructor
    · rintro ⟨t', ht', rfl⟩
      obtain ⟨os, ho, rfl⟩ := (ih t').1 ht'
      exact ⟨_, .mod ho, by rw [absorb_now, finish_all _ _ hs _ (items_markers ho)]⟩
    · rintro ⟨out, h, rfl⟩
      cases h with
      | mod ho =>
        exact ⟨_, (ih _).2 ⟨_, ho, rfl⟩, by rw [absorb_now, finish_all _ _ hs _ (items_markers ho)]⟩
theorem parseModItems_iff (cfg : Config) (cb : Callbacks) (ns : List String) (s t : ModState) (hs : s.apis.Inv)
    (l : List BindgenItem) :
    parseModItems cfg cb ns s l = some t ↔
      ∃ outs, ItemsFate cfg cb ns l outs ∧ t = outs.foldl ModState.absorb s := by
  match l with
  | [] =>
    constructor
    · intro h
      cases h
      exact ⟨[], .nil, rfl⟩
    · rintro ⟨outs, h, rfl⟩
      cases h
      rfl
  | i :: l =>
    have ih := fun t' => parseItem_iff cfg cb ns s t' hs i
    have ih' := fun s' hs' => parseModItems_iff cfg cb ns s' t hs' l
    constructor
    · intro h
      unfold parseModItems at h
      split at h
      · cases h
      · rename_i s' hs'
        obtain ⟨o, ho, rfl⟩ := (ih s').1 hs'
        obtain ⟨os, hos, rfl⟩ := (ih' _ (ApiVec.extend_inv hs _)).1 h
        exact ⟨_, .cons ho hos, rfl⟩
    · rintro ⟨outs, h, rfl⟩
      cases h with
      | cons ho hos =>
        unfold parseModItems
        rw [(ih _).2 ⟨_, ho, rfl⟩]
        exact (ih' _ (ApiVec.extend_inv hs _)).2 ⟨_, hos, rfl⟩
end

end Verif
