import Verif.ConfigParse
import Verif.ConfigProps

/-!
# C15, C17, C18 (first sentence), C54: what configurations parse to, and printing them again
-/

set_option autoImplicit false

namespace Verif

/-! ## The specification: a configuration is a sequence of directives -/

/-- One directive of `include_cpp!`, as the user understands it. -/
inductive Directive where
  | inc (header : String)
  | generate (s : String)
  | generatePod (s : String)
  | generateNs (s : String)
  | generateAll
  | safety (p : UnsafePolicy)
  | pod (s : String)
  | block (s : String)
  | opq (s : String)
  | blockConstructors (s : String)
  | instantiable (s : String)
  | parseOnly
  | excludeImpls
  | excludeUtilities
  | name (id : Ident)
  | concrete (s : String) (id : Ident)
  | rustType (id : Ident)
  | subclass (sup : String) (sub : Ident)
  | externRustFun (p : RustPath) (s : RustSig)
  | externCppType (s : String) (p : RustPath) (isOpaque : Bool)
deriving DecidableEq, Repr

/-- A path all of whose segments are proper identifiers. -/
def RustPath.Ok (p : RustPath) : Prop := p ≠ [] ∧ ∀ s ∈ p, s ∉ rustReserved

/-- A path of a type: a segment may also be `crate`, `self`, `super` or `Self`. -/
def RustPath.OkType (p : RustPath) : Prop :=
  p ≠ [] ∧ ∀ s ∈ p, s ∈ pathKeywords ∨ s ∉ rustReserved

/-- How a directive with an exclamation mark is written: its keyword and the tokens within the
parentheses. -/
inductive Written : Directive → String → List Tok → Prop
  | generate (s) : Written (.generate s) "generate" [.lit s]
  | generatePod (s) : Written (.generatePod s) "generate_pod" [.lit s]
  | generateNs (s) : Written (.generateNs s) "generate_ns" [.lit s]
  | generateAll : Written .generateAll "generate_all" []
  | safetyUnsafe : Written (.safety .allFunctionsSafe) "safety" [.ident "unsafe"]
  | safetyFfi : Written (.safety .allFunctionsSafe) "safety" [.ident "unsafe_ffi"]
  | safetyRefs : Written (.safety .referencesWrappedAllFunctionsSafe) "safety"
      [.ident "unsafe_references_wrapped"]
  | safetyNone : Written (.safety .allFunctionsUnsafe) "safety" []
  | pod (s) : Written (.pod s) "pod" [.lit s]
  | block (s) : Written (.block s) "block" [.lit s]
  | opq (s) : Written (.opq s) "opaque" [.lit s]
  | blockConstructors (s) : Written (.blockConstructors s) "block_constructors" [.lit s]
  | instantiable (s) : Written (.instantiable s) "instantiable" [.lit s]
  | parseOnly : Written .parseOnly "parse_only" []
  | excludeImpls : Written .excludeImpls "exclude_impls" []
  | excludeUtilities : Written .excludeUtilities "exclude_utilities" []
  | name (id) (h : id ∉ rustReserved) : Written (.name id) "name" [.ident id]
  | concrete (s id) (h : id ∉ rustReserved) :
      Written (.concrete s id) "concrete" [.lit s, .comma, .ident id]
  | rustType (id) (h : id ∉ rustReserved) : Written (.rustType id) "rust_type" [.ident id]
  | externRustType (id) (h : id ∉ rustReserved) :
      Written (.rustType id) "extern_rust_type" [.ident id]
  | subclass (s id) (h : id ∉ rustReserved) :
      Written (.subclass s id) "subclass" [.lit s, .comma, .ident id]
  | externRustFun (p s) (h : p.Ok) :
      Written (.externRustFun p s) "extern_rust_function" (pathToks p ++ [.comma, .sig s])
  | externCppType (s p) (h : p.OkType) :
      Written (.externCppType s p false) "extern_cpp_type" ([.lit s, .comma] ++ pathToks p)
  | externCppOpaqueType (s p) (h : p.OkType) :
      Written (.externCppType s p true) "extern_cpp_opaque_type" ([.lit s, .comma] ++ pathToks p)

/-- How a sequence of directives is written. The exclamation mark may be left out. -/
inductive Writes : List Directive → List Tok → Prop
  | nil : Writes [] []
  | inc {ds ts} (h) (r : Writes ds ts) :
      Writes (.inc h :: ds) (.pound :: .ident "include" :: .lit h :: ts)
  | bang {d k args ds ts} (w : Written d k args) (r : Writes ds ts) :
      Writes (d :: ds) (.ident k :: .bang :: .paren args :: ts)
  | plain {d k args ds ts} (w : Written d k args) (r : Writes ds ts) :
      Writes (d :: ds) (.ident k :: .paren args :: ts)

/-- The allowlist entry a directive asks for. -/
def Directive.entry : Directive → Option AllowlistEntry
  | .generate s | .generatePod s => some (.item s)
  | .generateNs s => some (.nspace s)
  | _ => none

/-- Both kinds of directive occur: `generate!`, `generate_pod!` or `generate_ns!`, and
`generate_all!`. -/
def Conflict (ds : List Directive) : Prop :=
  .generateAll ∈ ds ∧ ∃ d ∈ ds, d.entry.isSome = true

/-- The configuration a sequence of directives stands for: each list gathers its directives in order,
each flag says whether its directive occurs, and of settings the last one counts. -/
def meaning (ds : List Directive) : Config where
  inclusions := ds.filterMap fun | .inc h => some h | _ => none
  unsafePolicy := ((ds.filterMap fun | .safety p => some p | _ => none).getLast?).getD
    .allFunctionsUnsafe
  parseOnly := ds.contains .parseOnly
  excludeImpls := ds.contains .excludeImpls
  podRequests := ds.filterMap fun | .generatePod s | .pod s => some s | _ => none
  allowlist :=
    if .generateAll ∈ ds then .all
    else if (ds.filterMap Directive.entry).isEmpty then .unspecified []
    else .specific (ds.filterMap Directive.entry)
  blocklist := ds.filterMap fun | .block s => some s | _ => none
  constructorBlocklist := ds.filterMap fun | .blockConstructors s => some s | _ => none
  instantiable := ds.filterMap fun | .instantiable s => some s | _ => none
  excludeUtilities := ds.contains .excludeUtilities
  modName := (ds.filterMap fun | .name id => some id | _ => none).getLast?
  rustTypes := ds.filterMap fun | .rustType id => some [id] | _ => none
  subclasses := ds.filterMap fun | .subclass s id => some ⟨s, id⟩ | _ => none
  externRustFuns := ds.filterMap fun | .externRustFun p s => some ⟨p, s, false⟩ | _ => none
  concretes := (ds.filterMap fun | .concrete s id => some (s, id) | _ => none).foldl
    (fun m e => m.insert e.1 e.2) []
  externs := (ds.filterMap fun | .externCppType s p o => some (s, ⟨p, o⟩) | _ => none).foldl
    (fun m e => m.insert e.1 e.2) []
  opaquelist := ds.filterMap fun | .opq s => some s | _ => none

/-! ## The token parsers -/

theorem pLit_ok {ts r s} : pLit ts = .ok (s, r) ↔ ts = .lit s :: r := by
  unfold pLit; split <;> simp_all [eq_comm]

theorem pComma_ok {ts r u} : pComma ts = .ok (u, r) ↔ ts = .comma :: r := by
  unfold pComma; split <;> simp_all [eq_comm]

theorem pSig_ok {ts r s} : pSig ts = .ok (s, r) ↔ ts = .sig s :: r := by
  unfold pSig; split <;> simp_all [eq_comm]

theorem pIdent_ok {ts r s} : pIdent ts = .ok (s, r) ↔ s ∉ rustReserved ∧ ts = .ident s :: r := by
  unfold pIdent; split
  · rename_i s' ts'
    by_cases h : s' ∈ rustReserved
    · simp only [h, if_true]
      constructor
      · intro h'; cases h'
      · rintro ⟨h1, h2⟩; cases h2; exact absurd h h1
    · simp only [h, if_false]
      constructor
      · intro h'; cases h'; exact ⟨h, rfl⟩
      · rintro ⟨h1, h2⟩; cases h2; rfl
  · rename_i h
    constructor
    · intro h'; cases h'
    · rintro ⟨_, rfl⟩; exact absurd rfl (h _ _)

theorem pathToks_cons (a : Ident) (p : RustPath) :
    pathToks (a :: p) = .ident a :: p.flatMap fun b => [.pathSep, .ident b] := by
  induction p generalizing a with
  | nil => rfl
  | cons b p ih => simp [pathToks, ih]

/-- What follows a path does not begin with `::`. -/
def NoSep (ts : List Tok) : Prop := ∀ r, ts ≠ .pathSep :: r

theorem pPathRest_ok (ts : List Tok) : ∀ (acc p : RustPath) (r : List Tok),
    pPathRest acc ts = .ok (p, r) ↔
      NoSep r ∧ ∃ q, p = acc ++ q ∧ (∀ s ∈ q, s ∉ rustReserved) ∧
        ts = (q.flatMap fun b => [.pathSep, .ident b]) ++ r := by
  intro acc
  fun_induction pPathRest acc ts with
  | case1 acc s ts h =>
    intro p r
    constructor
    · intro h'; cases h'
    · rintro ⟨hr, q, -, hq, e⟩
      cases q with
      | nil => exact absurd e.symm (hr _)
      | cons b q => simp at e; exact absurd h (e.1 ▸ hq b (by simp))
  | case2 acc s ts h ih =>
    intro p r
    rw [ih]
    constructor
    · rintro ⟨hr, q, rfl, hq, rfl⟩
      exact ⟨hr, s :: q, by simp, by simp; exact ⟨h, hq⟩, by simp⟩
    · rintro ⟨hr, q, rfl, hq, e⟩
      cases q with
      | nil => exact absurd e.symm (hr _)
      | cons b q =>
        simp at e
        obtain ⟨rfl, rfl⟩ := e
        exact ⟨hr, q, by simp, fun s' hs => hq s' (by simp [hs]), rfl⟩
  | case3 acc ts hn =>
    intro p r
    constructor
    · intro h'; cases h'
    · rintro ⟨hr, q, -, hq, e⟩
      cases q with
      | nil => exact absurd e.symm (hr _)
      | cons b q => simp at e; exact absurd e (hn _ _)
  | case4 acc ts hn =>
    intro p r
    constructor
    · intro h'; cases h'
      exact ⟨fun r e => hn _ e, [], by simp, by simp, by simp⟩
    · rintro ⟨hr, q, rfl, hq, e⟩
      cases q with
      | nil => simp at e; subst e; simp
      | cons b q => simp at e; exact absurd e (hn _)

theorem pPath_ok {ts p r} :
    pPath ts = .ok (p, r) ↔ NoSep r ∧ p.Ok ∧ ts = pathToks p ++ r := by
  unfold pPath
  constructor
  · intro h
    cases hi : pIdent ts with
    | error e => rw [hi] at h; cases h
    | ok x =>
      obtain ⟨id, ts'⟩ := x
      rw [hi] at h
      obtain ⟨h1, rfl⟩ := pIdent_ok.1 hi
      obtain ⟨hr, q, rfl, hq, rfl⟩ := (pPathRest_ok _ _ _ _).1 h
      refine ⟨hr, ⟨by simp, ?_⟩, ?_⟩
      · intro s hs; simp at hs; rcases hs with rfl | hs
        · exact h1
        · exact hq s hs
      · simp [pathToks_cons]
  · rintro ⟨hr, ⟨hne, hok⟩, rfl⟩
    cases p with
    | nil => exact absurd rfl hne
    | cons a p =>
      have : pIdent (pathToks (a :: p) ++ r) =
          .ok (a, (p.flatMap fun b => [.pathSep, .ident b]) ++ r) :=
        pIdent_ok.2 ⟨hok a (by simp), by simp [pathToks_cons]⟩
      rw [this]
      exact (pPathRest_ok _ _ _ _).2
        ⟨hr, p, by simp, fun s hs => hok s (by simp [hs]), rfl⟩

theorem isTypeSeg_iff (s : String) : isTypeSeg s = true ↔ s ∈ pathKeywords ∨ s ∉ rustReserved := by
  simp [isTypeSeg]

theorem pTypePathRest_ok (ts : List Tok) : ∀ (acc p : RustPath) (r : List Tok),
    pTypePathRest acc ts = .ok (p, r) ↔
      NoSep r ∧ ∃ q, p = acc ++ q ∧ (∀ s ∈ q, isTypeSeg s = true) ∧
        ts = (q.flatMap fun b => [.pathSep, .ident b]) ++ r := by
  intro acc
  fun_induction pTypePathRest acc ts with
  | case2 acc s ts h =>
    intro p r
    constructor
    · intro h'; cases h'
    · rintro ⟨hr, q, -, hq, e⟩
      cases q with
      | nil => exact absurd e.symm (hr _)
      | cons b q => simp at e; exact absurd (e.1 ▸ hq b (by simp)) h
  | case1 acc s ts h ih =>
    intro p r
    rw [ih]
    constructor
    · rintro ⟨hr, q, rfl, hq, rfl⟩
      exact ⟨hr, s :: q, by simp, by simp; exact ⟨h, hq⟩, by simp⟩
    · rintro ⟨hr, q, rfl, hq, e⟩
      cases q with
      | nil => exact absurd e.symm (hr _)
      | cons b q =>
        simp at e
        obtain ⟨rfl, rfl⟩ := e
        exact ⟨hr, q, by simp, fun s' hs => hq s' (by simp [hs]), rfl⟩
  | case3 acc ts hn =>
    intro p r
    constructor
    · intro h'; cases h'
    · rintro ⟨hr, q, -, hq, e⟩
      cases q with
      | nil => exact absurd e.symm (hr _)
      | cons b q => simp at e; exact absurd e (hn _ _)
  | case4 acc ts hn =>
    intro p r
    constructor
    · intro h'; cases h'
      exact ⟨fun r e => hn _ e, [], by simp, by simp, by simp⟩
    · rintro ⟨hr, q, rfl, hq, e⟩
      cases q with
      | nil => simp at e; subst e; simp
      | cons b q => simp at e; exact absurd e (hn _)

theorem pTypePath_ok {ts p r} :
    pTypePath ts = .ok (p, r) ↔ NoSep r ∧ p.OkType ∧ ts = pathToks p ++ r := by
  constructor
  · intro h
    unfold pTypePath at h
    split at h
    · rename_i s ts
      split at h
      · rename_i hs
        obtain ⟨hr, q, rfl, hq, rfl⟩ := (pTypePathRest_ok _ _ _ _).1 h
        refine ⟨hr, ⟨by simp, ?_⟩, ?_⟩
        · intro s' hs'; simp at hs'; rcases hs' with rfl | hs'
          · exact (isTypeSeg_iff _).1 hs
          · exact (isTypeSeg_iff _).1 (hq s' hs')
        · simp [pathToks_cons]
      · cases h
    · cases h
  · rintro ⟨hr, ⟨hne, hok⟩, rfl⟩
    cases p with
    | nil => exact absurd rfl hne
    | cons a p =>
      rw [pathToks_cons]
      simp only [List.cons_append, pTypePath]
      rw [if_pos ((isTypeSeg_iff _).2 (hok a (by simp)))]
      exact (pTypePathRest_ok _ _ _ _).2
        ⟨hr, p, by simp, fun s hs => (isTypeSeg_iff _).2 (hok s (by simp [hs])), rfl⟩

/-! ## One directive -/

theorem all_mem_append (ds : List Directive) (d : Directive) :
    Directive.generateAll ∈ ds ++ [d] ↔ .generateAll ∈ ds ∨ d = .generateAll := by
  simp [eq_comm]

theorem meaning_push {ds : List Directive} {d : Directive} {e : AllowlistEntry}
    (he : d.entry = some e) (hn : .generateAll ∉ ds) :
    (meaning ds).allowlist.push e = some (meaning (ds ++ [d])).allowlist := by
  have hd : d ≠ .generateAll := by rintro rfl; cases he
  have hn' : Directive.generateAll ∉ ds ++ [d] := by rw [all_mem_append]; simp [hn, hd]
  have hf : (ds ++ [d]).filterMap Directive.entry = ds.filterMap Directive.entry ++ [e] := by
    simp [List.filterMap_append, he]
  simp only [meaning, hn, hn', if_false, hf]
  cases hz : (ds.filterMap Directive.entry) with
  | nil => simp [Allowlist.push]
  | cons a l => simp [Allowlist.push]

theorem meaning_push_all {ds : List Directive} (e : AllowlistEntry) (hn : .generateAll ∈ ds) :
    (meaning ds).allowlist.push e = none := by
  simp [meaning, hn, Allowlist.push]

theorem meaning_setAll {ds : List Directive} (hn : ¬ Conflict (ds ++ [.generateAll])) :
    (meaning ds).allowlist.setAll = some (meaning (ds ++ [.generateAll])).allowlist := by
  have hz : ds.filterMap Directive.entry = [] := by
    rw [List.filterMap_eq_nil_iff]
    intro d hd
    cases he : d.entry with
    | none => rfl
    | some e => exact absurd ⟨by simp, d, by simp [hd], by simp [he]⟩ hn
  by_cases h : Directive.generateAll ∈ ds <;> simp [meaning, h, hz, Allowlist.setAll]

theorem meaning_setAll_conflict {ds : List Directive} (h0 : ¬ Conflict ds)
    (hn : Conflict (ds ++ [.generateAll])) : (meaning ds).allowlist.setAll = none := by
  obtain ⟨-, d, hd, he⟩ := hn
  have hd : d ∈ ds := by
    simp at hd; rcases hd with hd | rfl
    · exact hd
    · cases he
  have h : Directive.generateAll ∉ ds := fun h => h0 ⟨h, d, hd, he⟩
  have hz : ds.filterMap Directive.entry ≠ [] := by
    intro hz
    rw [List.filterMap_eq_nil_iff] at hz
    rw [hz d hd] at he; cases he
  simp [meaning, h, hz, Allowlist.setAll]

theorem conflict_append {ds : List Directive} {d : Directive} (h0 : ¬ Conflict ds) :
    Conflict (ds ++ [d]) ↔
      (.generateAll ∈ ds ∧ d.entry.isSome = true) ∨
      (d = .generateAll ∧ ∃ d ∈ ds, d.entry.isSome = true) := by
  constructor
  · rintro ⟨ha, d', hd', he⟩
    rw [all_mem_append] at ha
    simp at hd'
    rcases ha with ha | rfl
    · rcases hd' with hd' | rfl
      · exact absurd ⟨ha, d', hd', he⟩ h0
      · exact Or.inl ⟨ha, he⟩
    · rcases hd' with hd' | rfl
      · exact Or.inr ⟨rfl, d', hd', he⟩
      · cases he
  · rintro (⟨ha, he⟩ | ⟨rfl, d', hd', he⟩)
    · exact ⟨by simp [ha], d, by simp, he⟩
    · exact ⟨by simp, d', by simp [hd'], he⟩

/-- The allowlist is untouched by a directive which does not mention it. -/
theorem meaning_allow_other {ds : List Directive} {d : Directive} (he : d.entry = none)
    (ha : d ≠ .generateAll) : (meaning (ds ++ [d])).allowlist = (meaning ds).allowlist := by
  have : (Directive.generateAll ∈ ds ++ [d]) ↔ Directive.generateAll ∈ ds := by
    rw [all_mem_append]; simp [ha]
  simp [meaning, this, List.filterMap_append, he]

theorem entry_eqs : (∀ h, (Directive.inc h).entry = none) ∧ (∀ p, (Directive.safety p).entry = none) ∧
    (∀ s, (Directive.pod s).entry = none) ∧ (∀ s, (Directive.block s).entry = none) ∧
    (∀ s, (Directive.opq s).entry = none) ∧ (∀ s, (Directive.blockConstructors s).entry = none) ∧
    (∀ s, (Directive.instantiable s).entry = none) ∧ Directive.parseOnly.entry = none ∧
    Directive.excludeImpls.entry = none ∧ Directive.excludeUtilities.entry = none ∧
    (∀ s, (Directive.name s).entry = none) ∧ (∀ s i, (Directive.concrete s i).entry = none) ∧
    (∀ s, (Directive.rustType s).entry = none) ∧ (∀ s i, (Directive.subclass s i).entry = none) ∧
    (∀ s i, (Directive.externRustFun s i).entry = none) ∧
    (∀ s i o, (Directive.externCppType s i o).entry = none) ∧
    Directive.generateAll.entry = none :=
  ⟨fun _ => rfl, fun _ => rfl, fun _ => rfl, fun _ => rfl, fun _ => rfl, fun _ => rfl, fun _ => rfl, rfl,
   rfl, rfl, fun _ => rfl, fun _ _ => rfl, fun _ => rfl, fun _ _ => rfl, fun _ _ => rfl,
   fun _ _ _ => rfl, rfl⟩

theorem runDirective_ok {k args c c'} (f : Config → TParser Config) (hd : directive k = some f)
    (hf : f c args = .ok (c', [])) : runDirective k args c = .ok c' := by
  simp [runDirective, hd, hf]

theorem runDirective_err {k args c e} (f : Config → TParser Config) (hd : directive k = some f)
    (hf : f c args = .error e) : runDirective k args c = .error e := by
  simp [runDirective, hd, hf]

/-- Without a conflict, a directive takes the configuration meant by what came before to the one meant
by both. -/
theorem run_written {ds : List Directive} {d k args} (w : Written d k args)
    (hc : ¬ Conflict (ds ++ [d])) :
    runDirective k args (meaning ds) = .ok (meaning (ds ++ [d])) := by
  have hall : ∀ e, d.entry = some e → Directive.generateAll ∉ ds := by
    intro e he h
    exact hc ⟨by simp [h], d, by simp, by simp [he]⟩
  cases w with
  | generate s =>
    refine runDirective_ok (dGenerate false) (by simp [directive]) ?_
    have := meaning_push (d := .generate s) rfl (hall _ rfl)
    simp only [dGenerate, pLit, pushAllow, bind, Except.bind, this]
    simp [meaning, List.filterMap_append]
  | generatePod s =>
    refine runDirective_ok (dGenerate true) (by simp [directive]) ?_
    have := meaning_push (d := .generatePod s) rfl (hall _ rfl)
    simp only [dGenerate, pLit, pushAllow, bind, Except.bind, this]
    simp [meaning, List.filterMap_append]
  | generateNs s =>
    refine runDirective_ok dGenerateNs (by simp [directive]) ?_
    have := meaning_push (d := .generateNs s) rfl (hall _ rfl)
    simp only [dGenerateNs, pLit, pushAllow, bind, Except.bind, this]
    simp [meaning, List.filterMap_append]
  | generateAll =>
    refine runDirective_ok (fun c ts => (setAllowAll c).map (·, ts)) (by simp [directive]) ?_
    have := meaning_setAll hc
    simp only [setAllowAll, this, Except.map]
    simp [meaning, List.filterMap_append]
  | externRustFun p s h =>
    refine runDirective_ok dExternRustFun (by simp [directive]) ?_
    have hp : pPath (pathToks p ++ [.comma, .sig s]) = .ok (p, [.comma, .sig s]) :=
      pPath_ok.2 ⟨by intro r; simp, h, rfl⟩
    simp only [dExternRustFun, hp, pComma, pSig, bind, Except.bind]
    simp [meaning, List.filterMap_append, entry_eqs]
  | externCppType s p h =>
    refine runDirective_ok (dExternCppType false) (by simp [directive]) ?_
    have hp : pTypePath (pathToks p) = .ok (p, []) :=
      pTypePath_ok.2 ⟨by intro r; simp, h, by simp⟩
    simp only [List.cons_append, List.nil_append, dExternCppType, hp, pLit, pComma, bind, Except.bind]
    simp [meaning, List.filterMap_append, entry_eqs]
  | externCppOpaqueType s p h =>
    refine runDirective_ok (dExternCppType true) (by simp [directive]) ?_
    have hp : pTypePath (pathToks p) = .ok (p, []) :=
      pTypePath_ok.2 ⟨by intro r; simp, h, by simp⟩
    simp only [List.cons_append, List.nil_append, dExternCppType, hp, pLit, pComma, bind, Except.bind]
    simp [meaning, List.filterMap_append, entry_eqs]
  | name id h =>
    refine runDirective_ok dName (by simp [directive]) ?_
    simp only [dName, pIdent, if_neg h, bind, Except.bind]
    simp [meaning, List.filterMap_append, entry_eqs]
  | concrete s id h =>
    refine runDirective_ok dConcrete (by simp [directive]) ?_
    simp only [dConcrete, pLit, pComma, pIdent, if_neg h, bind, Except.bind]
    simp [meaning, List.filterMap_append, entry_eqs]
  | subclass s id h =>
    refine runDirective_ok dSubclass (by simp [directive]) ?_
    simp only [dSubclass, pLit, pComma, pIdent, if_neg h, bind, Except.bind]
    simp [meaning, List.filterMap_append, entry_eqs]
  | rustType id h =>
    refine runDirective_ok dRustType (by simp [directive]) ?_
    simp only [dRustType, pIdent, if_neg h, bind, Except.bind]
    simp [meaning, List.filterMap_append, entry_eqs]
  | externRustType id h =>
    refine runDirective_ok dRustType (by simp [directive]) ?_
    simp only [dRustType, pIdent, if_neg h, bind, Except.bind]
    simp [meaning, List.filterMap_append, entry_eqs]
  | pod s =>
    refine runDirective_ok (dString fun c s => { c with podRequests := c.podRequests ++ [s] })
      (by simp [directive]) ?_
    simp only [dString, pLit, bind, Except.bind]
    simp [meaning, List.filterMap_append, entry_eqs]
  | block s =>
    refine runDirective_ok (dString fun c s => { c with blocklist := c.blocklist ++ [s] })
      (by simp [directive]) ?_
    simp only [dString, pLit, bind, Except.bind]
    simp [meaning, List.filterMap_append, entry_eqs]
  | opq s =>
    refine runDirective_ok (dString fun c s => { c with opaquelist := c.opaquelist ++ [s] })
      (by simp [directive]) ?_
    simp only [dString, pLit, bind, Except.bind]
    simp [meaning, List.filterMap_append, entry_eqs]
  | blockConstructors s =>
    refine runDirective_ok (dString fun c s =>
      { c with constructorBlocklist := c.constructorBlocklist ++ [s] }) (by simp [directive]) ?_
    simp only [dString, pLit, bind, Except.bind]
    simp [meaning, List.filterMap_append, entry_eqs]
  | instantiable s =>
    refine runDirective_ok (dString fun c s => { c with instantiable := c.instantiable ++ [s] })
      (by simp [directive]) ?_
    simp only [dString, pLit, bind, Except.bind]
    simp [meaning, List.filterMap_append, entry_eqs]
  | parseOnly =>
    refine runDirective_ok (fun c ts => .ok ({ c with parseOnly := true }, ts))
      (by simp [directive]) ?_
    simp [meaning, List.filterMap_append, entry_eqs]
  | excludeImpls =>
    refine runDirective_ok (fun c ts => .ok ({ c with excludeImpls := true }, ts))
      (by simp [directive]) ?_
    simp [meaning, List.filterMap_append, entry_eqs]
  | excludeUtilities =>
    refine runDirective_ok (fun c ts => .ok ({ c with excludeUtilities := true }, ts))
      (by simp [directive]) ?_
    simp [meaning, List.filterMap_append, entry_eqs]
  | safetyUnsafe =>
    refine runDirective_ok dSafety (by simp [directive]) ?_
    simp [dSafety, pPolicy, bind, Except.bind, meaning, List.filterMap_append, entry_eqs]
  | safetyFfi =>
    refine runDirective_ok dSafety (by simp [directive]) ?_
    simp [dSafety, pPolicy, bind, Except.bind, meaning, List.filterMap_append, entry_eqs,
      rustReserved]
  | safetyRefs =>
    refine runDirective_ok dSafety (by simp [directive]) ?_
    simp [dSafety, pPolicy, bind, Except.bind, meaning, List.filterMap_append, entry_eqs,
      rustReserved]
  | safetyNone =>
    refine runDirective_ok dSafety (by simp [directive]) ?_
    simp [dSafety, pPolicy, bind, Except.bind, meaning, List.filterMap_append, entry_eqs]

theorem run_written_conflict {ds : List Directive} {d k args} (w : Written d k args)
    (h0 : ¬ Conflict ds) (hc : Conflict (ds ++ [d])) :
    runDirective k args (meaning ds) = .error .conflict := by
  have hc' := (conflict_append h0).1 hc
  cases w with
  | generateAll =>
    have := meaning_setAll_conflict h0 hc
    simp [runDirective, directive, setAllowAll, this, Except.map]
  | generate s =>
    rcases hc' with ⟨ha, -⟩ | ⟨h, -⟩
    · have := meaning_push_all (.item s) ha
      simp [runDirective, directive, dGenerate, pLit, pushAllow, bind, Except.bind, this]
    · cases h
  | generatePod s =>
    rcases hc' with ⟨ha, -⟩ | ⟨h, -⟩
    · have := meaning_push_all (.item s) ha
      simp [runDirective, directive, dGenerate, pLit, pushAllow, bind, Except.bind, this]
    · cases h
  | generateNs s =>
    rcases hc' with ⟨ha, -⟩ | ⟨h, -⟩
    · have := meaning_push_all (.nspace s) ha
      simp [runDirective, directive, dGenerateNs, pLit, pushAllow, bind, Except.bind, this]
    · cases h
  | _ => rcases hc' with ⟨-, h⟩ | ⟨h, -⟩ <;> cases h

theorem bind_ok {α β : Type} {x : Except PErr α} {f : α → Except PErr β} {b : β} :
    (x >>= f) = .ok b ↔ ∃ a, x = .ok a ∧ f a = .ok b := by
  cases x <;> simp [bind, Except.bind]

theorem pPolicy_ok {args p} (h : pPolicy args = .ok (p, [])) : Written (.safety p) "safety" args := by
  unfold pPolicy at h
  split at h
  · rename_i s ts
    split at h
    · rename_i hs; cases h; subst hs; exact .safetyUnsafe
    · split at h
      · cases h
      · split at h
        · rename_i he
          have : ts = [] := by simpa using he
          subst this
          split at h
          · rename_i hs; cases h; subst hs; exact .safetyFfi
          · split at h
            · rename_i hs; cases h; subst hs; exact .safetyRefs
            · cases h
        · cases h
  · cases h; exact .safetyNone
  · cases h

theorem ite_some_inv {α : Type} {p : Prop} [Decidable p] {a f : α} {x : Option α}
    (h : (if p then some a else x) = some f) : (p ∧ a = f) ∨ x = some f := by
  by_cases hp : p <;> simp_all

theorem runDirective_inv {k args c c'} (h : runDirective k args c = .ok c') :
    ∃ d, Written d k args := by
  unfold runDirective at h
  split at h
  · cases h
  · rename_i f hf
    split at h
    · cases h
    · rename_i c1 hr
      simp only [Except.ok.injEq] at h; subst h
      unfold directive at hf
      rcases ite_some_inv hf with ⟨rfl, rfl⟩ | hf
      · obtain ⟨⟨s, ts⟩, h1, h2⟩ := bind_ok.1 hr
        obtain ⟨c2, h3, h4⟩ := bind_ok.1 h2
        cases h4; rw [pLit_ok.1 h1]; exact ⟨_, .generate s⟩
      rcases ite_some_inv hf with ⟨rfl, rfl⟩ | hf
      · obtain ⟨⟨s, ts⟩, h1, h2⟩ := bind_ok.1 hr
        obtain ⟨c2, h3, h4⟩ := bind_ok.1 h2
        cases h4; rw [pLit_ok.1 h1]; exact ⟨_, .generatePod s⟩
      rcases ite_some_inv hf with ⟨rfl, rfl⟩ | hf
      · obtain ⟨⟨s, ts⟩, h1, h2⟩ := bind_ok.1 hr
        obtain ⟨c2, h3, h4⟩ := bind_ok.1 h2
        cases h4; rw [pLit_ok.1 h1]; exact ⟨_, .generateNs s⟩
      rcases ite_some_inv hf with ⟨rfl, rfl⟩ | hf
      · simp only [Except.map] at hr
        split at hr
        · cases hr
        · cases hr; exact ⟨_, .generateAll⟩
      rcases ite_some_inv hf with ⟨rfl, rfl⟩ | hf
      · obtain ⟨⟨s, ts⟩, h1, h2⟩ := bind_ok.1 hr
        cases h2; exact ⟨_, pPolicy_ok h1⟩
      rcases ite_some_inv hf with ⟨rfl, rfl⟩ | hf
      · obtain ⟨⟨s, ts⟩, h1, h2⟩ := bind_ok.1 hr
        cases h2; rw [pLit_ok.1 h1]; exact ⟨_, .pod s⟩
      rcases ite_some_inv hf with ⟨rfl, rfl⟩ | hf
      · obtain ⟨⟨s, ts⟩, h1, h2⟩ := bind_ok.1 hr
        cases h2; rw [pLit_ok.1 h1]; exact ⟨_, .block s⟩
      rcases ite_some_inv hf with ⟨rfl, rfl⟩ | hf
      · obtain ⟨⟨s, ts⟩, h1, h2⟩ := bind_ok.1 hr
        cases h2; rw [pLit_ok.1 h1]; exact ⟨_, .opq s⟩
      rcases ite_some_inv hf with ⟨rfl, rfl⟩ | hf
      · obtain ⟨⟨s, ts⟩, h1, h2⟩ := bind_ok.1 hr
        cases h2; rw [pLit_ok.1 h1]; exact ⟨_, .blockConstructors s⟩
      rcases ite_some_inv hf with ⟨rfl, rfl⟩ | hf
      · obtain ⟨⟨s, ts⟩, h1, h2⟩ := bind_ok.1 hr
        cases h2; rw [pLit_ok.1 h1]; exact ⟨_, .instantiable s⟩
      rcases ite_some_inv hf with ⟨rfl, rfl⟩ | hf
      · cases hr; exact ⟨_, .parseOnly⟩
      rcases ite_some_inv hf with ⟨rfl, rfl⟩ | hf
      · cases hr; exact ⟨_, .excludeImpls⟩
      rcases ite_some_inv hf with ⟨rfl, rfl⟩ | hf
      · cases hr; exact ⟨_, .excludeUtilities⟩
      rcases ite_some_inv hf with ⟨rfl, rfl⟩ | hf
      · obtain ⟨⟨s, ts⟩, h1, h2⟩ := bind_ok.1 hr
        obtain ⟨hi, rfl⟩ := pIdent_ok.1 h1
        cases h2; exact ⟨_, .name s hi⟩
      rcases ite_some_inv hf with ⟨rfl, rfl⟩ | hf
      · obtain ⟨⟨s, ts⟩, h1, h2⟩ := bind_ok.1 hr
        obtain ⟨⟨u, ts2⟩, h3, h4⟩ := bind_ok.1 h2
        obtain ⟨⟨i, ts3⟩, h5, h6⟩ := bind_ok.1 h4
        obtain ⟨hi, rfl⟩ := pIdent_ok.1 h5
        cases h6
        rw [pLit_ok.1 h1, pComma_ok.1 h3]; exact ⟨_, .concrete s i hi⟩
      rcases ite_some_inv hf with ⟨rfl, rfl⟩ | hf
      · obtain ⟨⟨s, ts⟩, h1, h2⟩ := bind_ok.1 hr
        obtain ⟨hi, rfl⟩ := pIdent_ok.1 h1
        cases h2; exact ⟨_, .rustType s hi⟩
      rcases ite_some_inv hf with ⟨rfl, rfl⟩ | hf
      · obtain ⟨⟨s, ts⟩, h1, h2⟩ := bind_ok.1 hr
        obtain ⟨hi, rfl⟩ := pIdent_ok.1 h1
        cases h2; exact ⟨_, .externRustType s hi⟩
      rcases ite_some_inv hf with ⟨rfl, rfl⟩ | hf
      · obtain ⟨⟨s, ts⟩, h1, h2⟩ := bind_ok.1 hr
        obtain ⟨⟨u, ts2⟩, h3, h4⟩ := bind_ok.1 h2
        obtain ⟨⟨i, ts3⟩, h5, h6⟩ := bind_ok.1 h4
        obtain ⟨hi, rfl⟩ := pIdent_ok.1 h5
        cases h6
        rw [pLit_ok.1 h1, pComma_ok.1 h3]; exact ⟨_, .subclass s i hi⟩
      rcases ite_some_inv hf with ⟨rfl, rfl⟩ | hf
      · obtain ⟨⟨p, ts⟩, h1, h2⟩ := bind_ok.1 hr
        obtain ⟨⟨u, ts2⟩, h3, h4⟩ := bind_ok.1 h2
        obtain ⟨⟨s, ts3⟩, h5, h6⟩ := bind_ok.1 h4
        cases h6
        rw [pSig_ok.1 h5] at h3
        rw [pComma_ok.1 h3] at h1
        obtain ⟨-, hp, rfl⟩ := pPath_ok.1 h1
        exact ⟨_, .externRustFun p s hp⟩
      rcases ite_some_inv hf with ⟨rfl, rfl⟩ | hf
      · obtain ⟨⟨s, ts⟩, h1, h2⟩ := bind_ok.1 hr
        obtain ⟨⟨u, ts2⟩, h3, h4⟩ := bind_ok.1 h2
        obtain ⟨⟨p, ts3⟩, h5, h6⟩ := bind_ok.1 h4
        cases h6
        obtain ⟨-, hp, rfl⟩ := pTypePath_ok.1 h5
        rw [pLit_ok.1 h1, pComma_ok.1 h3]
        simp only [List.append_nil]
        exact ⟨_, .externCppType s p hp⟩
      rcases ite_some_inv hf with ⟨rfl, rfl⟩ | hf
      · obtain ⟨⟨s, ts⟩, h1, h2⟩ := bind_ok.1 hr
        obtain ⟨⟨u, ts2⟩, h3, h4⟩ := bind_ok.1 h2
        obtain ⟨⟨p, ts3⟩, h5, h6⟩ := bind_ok.1 h4
        cases h6
        obtain ⟨-, hp, rfl⟩ := pTypePath_ok.1 h5
        rw [pLit_ok.1 h1, pComma_ok.1 h3]
        simp only [List.append_nil]
        exact ⟨_, .externCppOpaqueType s p hp⟩
      cases hf
    · cases h

theorem written_keyword {d k args} (w : Written d k args) : k ∉ rustReserved := by
  cases w <;> simp [rustReserved]

theorem conflict_mono {ds ds' : List Directive} (h : Conflict ds) : Conflict (ds ++ ds') := by
  obtain ⟨h1, d, h2, h3⟩ := h
  exact ⟨by simp [h1], d, by simp [h2], h3⟩

/-! ## The whole configuration -/

theorem parseLoop_writes {ds' : List Directive} {ts : List Tok} (w : Writes ds' ts) :
    ∀ ds, ¬ Conflict ds → (Conflict (ds ++ ds') → parseLoop ts (meaning ds) = .error .conflict) ∧
      (¬ Conflict (ds ++ ds') → parseLoop ts (meaning ds) = .ok (meaning (ds ++ ds'))) := by
  induction w with
  | nil =>
    intro ds h0
    constructor
    · intro h; simp at h; exact absurd h h0
    · intro _; simp [parseLoop]
  | @inc ds' ts h r ih =>
    intro ds h0
    have hn : ¬ Conflict (ds ++ [.inc h]) := by
      rw [conflict_append h0]; rintro (⟨-, h⟩ | ⟨h, -⟩) <;> cases h
    have := ih (ds ++ [.inc h]) hn
    simp only [List.append_assoc, List.cons_append, List.nil_append] at this
    have e : parseLoop (.pound :: .ident "include" :: .lit h :: ts) (meaning ds) =
        parseLoop ts (meaning (ds ++ [.inc h])) := by
      rw [parseLoop]
      rw [if_neg (by simp [rustReserved]), if_neg (by simp)]
      congr 1
      simp [meaning, List.filterMap_append, entry_eqs]
    rw [e]; exact this
  | @bang d k args ds' ts w r ih =>
    intro ds h0
    have e : parseLoop (.ident k :: .bang :: .paren args :: ts) (meaning ds) =
        (match runDirective k args (meaning ds) with
        | .ok c => parseLoop ts c
        | .error e => .error e) := by
      rw [parseLoop, if_neg (written_keyword w)]
      cases runDirective k args (meaning ds) <;> rfl
    rw [e]
    by_cases hc : Conflict (ds ++ [d])
    · rw [run_written_conflict w h0 hc]
      refine ⟨fun _ => rfl, fun h => absurd ?_ h⟩
      have := conflict_mono (ds' := ds') hc
      simpa using this
    · rw [run_written w hc]
      have := ih (ds ++ [d]) hc
      simpa using this
  | @plain d k args ds' ts w r ih =>
    intro ds h0
    have e : parseLoop (.ident k :: .paren args :: ts) (meaning ds) =
        (match runDirective k args (meaning ds) with
        | .ok c => parseLoop ts c
        | .error e => .error e) := by
      rw [parseLoop, if_neg (written_keyword w)]
      cases runDirective k args (meaning ds) <;> rfl
    rw [e]
    by_cases hc : Conflict (ds ++ [d])
    · rw [run_written_conflict w h0 hc]
      refine ⟨fun _ => rfl, fun h => absurd ?_ h⟩
      have := conflict_mono (ds' := ds') hc
      simpa using this
    · rw [run_written w hc]
      have := ih (ds ++ [d]) hc
      simpa using this

theorem parseLoop_inv (ts : List Tok) (c c' : Config) (h : parseLoop ts c = .ok c') :
    ∃ ds, Writes ds ts := by
  fun_induction parseLoop ts c
  case case1 => exact ⟨[], .nil⟩
  case case4 hi _ _ ih =>
    have hi := Decidable.not_not.1 hi
    subst hi
    obtain ⟨ds, w⟩ := ih h
    exact ⟨_, .inc _ w⟩
  case case8 hr ih =>
    obtain ⟨ds, w⟩ := ih h
    obtain ⟨d, wd⟩ := runDirective_inv hr
    exact ⟨_, .bang wd w⟩
  case case10 hr ih =>
    obtain ⟨ds, w⟩ := ih h
    obtain ⟨d, wd⟩ := runDirective_inv hr
    exact ⟨_, .plain wd w⟩
  all_goals cases h

theorem meaning_nil : meaning [] = {} := by simp [meaning]

theorem not_conflict_nil : ¬ Conflict [] := by rintro ⟨h, -⟩; cases h

/-- **C15, C17, C18.** A configuration is accepted exactly if it is a sequence of well-formed directives
which does not mix `generate_all!` with the other `generate` directives, and then it stands for what those
directives say. -/
theorem parse_config_ok_iff (ts : List Tok) (c : Config) :
    parseConfig ts = .ok c ↔ ∃ ds, Writes ds ts ∧ ¬ Conflict ds ∧ c = meaning ds := by
  unfold parseConfig
  rw [← meaning_nil]
  constructor
  · intro h
    obtain ⟨ds, w⟩ := parseLoop_inv _ _ _ h
    obtain ⟨h1, h2⟩ := parseLoop_writes w [] not_conflict_nil
    simp only [List.nil_append] at h1 h2
    by_cases hc : Conflict ds
    · rw [h1 hc] at h; cases h
    · rw [h2 hc] at h; cases h; exact ⟨ds, w, hc, rfl⟩
  · rintro ⟨ds, w, hc, rfl⟩
    exact (parseLoop_writes w [] not_conflict_nil).2 hc

/-- **C15.** Whatever the order, the number and the other directives around them, using `generate_all!`
together with `generate!`, `generate_pod!` or `generate_ns!` is refused, for that reason. -/
theorem parse_config_conflict {ds : List Directive} {ts : List Tok} (w : Writes ds ts)
    (h : Conflict ds) : parseConfig ts = .error .conflict := by
  unfold parseConfig
  rw [← meaning_nil]
  exact (parseLoop_writes w [] not_conflict_nil).1 h

/-- **C15.** A configuration of well-formed directives using only one kind is accepted; with
`generate_all!` everything is allowed, and otherwise the entries are kept complete and in order. -/
theorem parse_config_allowlist {ds : List Directive} {ts : List Tok} (w : Writes ds ts)
    (h : ¬ Conflict ds) :
    ∃ c, parseConfig ts = .ok c ∧
      (.generateAll ∈ ds → c.allowlist = .all) ∧
      (.generateAll ∉ ds → (∃ d ∈ ds, d.entry.isSome = true) →
        c.allowlist = .specific (ds.filterMap Directive.entry)) ∧
      (.generateAll ∉ ds → (∀ d ∈ ds, d.entry = none) → c.allowlist = .unspecified []) := by
  refine ⟨meaning ds, (parse_config_ok_iff _ _).2 ⟨ds, w, h, rfl⟩, ?_, ?_, ?_⟩
  · intro ha; simp [meaning, ha]
  · rintro ha ⟨d, hd, he⟩
    have hz : ds.filterMap Directive.entry ≠ [] := by
      intro hz
      rw [List.filterMap_eq_nil_iff] at hz
      rw [hz d hd] at he; cases he
    simp [meaning, ha, hz]
  · intro ha hd
    have hz : ds.filterMap Directive.entry = [] := List.filterMap_eq_nil_iff.2 hd
    simp [meaning, ha, hz]

/-- A concrete configuration with several kinds of directive. -/
example : parseConfig [.pound, .ident "include", .lit "a.h", .ident "generate", .bang, .paren [.lit "A"],
    .ident "safety", .bang, .paren [.ident "unsafe_ffi"], .ident "concrete", .paren [.lit "B<int>", .comma,
    .ident "BInt"], .ident "generate_pod", .bang, .paren [.lit "C"]] =
    .ok { inclusions := ["a.h"], allowlist := .specific [.item "A", .item "C"], podRequests := ["C"],
          unsafePolicy := .allFunctionsSafe, concretes := [("B<int>", "BInt")] } := by
  simp [parseConfig, parseLoop, rustReserved, runDirective, directive, dGenerate, pLit, pushAllow,
    Allowlist.push, dSafety, pPolicy, dConcrete, pComma, pIdent, AMap.insert, bind, Except.bind]

example : parseConfig [.ident "generate_all", .bang, .paren [], .ident "block", .bang, .paren [.lit "X"],
    .ident "generate", .bang, .paren [.lit "A"]] = .error .conflict :=
  parse_config_conflict (.bang .generateAll (.bang (.block "X") (.bang (.generate "A") .nil)))
    ⟨by simp, .generate "A", by simp, rfl⟩

/-! ## C17: printing -/

/-- The configurations whose identifiers can be written again. Those made by the parser, and those the
engine completes, satisfy all but the two marked fields. -/
structure Config.Printable (c : Config) : Prop where
  /-- The mode of the allowlist is settled (`confirm_complete`, or any `generate` directive). -/
  allowlist : ∀ l, c.allowlist ≠ .unspecified l
  modName : ∀ id, c.modName = some id → id ∉ rustReserved
  concretes : c.concretes.WF ∧ ∀ e ∈ c.concretes, e.2 ∉ rustReserved
  subclasses : ∀ e ∈ c.subclasses, e.subclass ∉ rustReserved
  externs : c.externs.WF ∧ ∀ e ∈ c.externs, e.2.rustPath.OkType
  funPaths : ∀ f ∈ c.externRustFuns, f.path.Ok
  /-- Not always so: `extern_rust_function!` never has a receiver but a discovered one may. -/
  receivers : ∀ f ∈ c.externRustFuns, f.hasReceiver = false
  /-- Not always so: a discovered `extern_rust_type` may lie in a module. -/
  rustTypes : ∀ p ∈ c.rustTypes, ∃ id, p = [id] ∧ id ∉ rustReserved

/-- What reading back a printed configuration gives: everything the same, except that the entries of the
allowlist have the namespaces last and that an empty one is not settled, and that opaque external types
come last. -/
structure Config.SameAs (c' c : Config) : Prop where
  inclusions : c'.inclusions = c.inclusions
  unsafePolicy : c'.unsafePolicy = c.unsafePolicy
  parseOnly : c'.parseOnly = c.parseOnly
  excludeImpls : c'.excludeImpls = c.excludeImpls
  podRequests : c'.podRequests = c.podRequests
  allowAll : c.allowlist = .all ↔ c'.allowlist = .all
  allowItems : c'.allowlist.items = c.allowlist.items
  allowNspaces : c'.allowlist.nspaces = c.allowlist.nspaces
  blocklist : c'.blocklist = c.blocklist
  constructorBlocklist : c'.constructorBlocklist = c.constructorBlocklist
  instantiable : c'.instantiable = c.instantiable
  excludeUtilities : c'.excludeUtilities = c.excludeUtilities
  modName : c'.modName = c.modName
  rustTypes : c'.rustTypes = c.rustTypes
  subclasses : c'.subclasses = c.subclasses
  externRustFuns : c'.externRustFuns = c.externRustFuns
  concretes : c'.concretes = c.concretes
  externs : ∀ k, c'.externs.get? k = c.externs.get? k
  opaquelist : c'.opaquelist = c.opaquelist

theorem Writes.append {ds ds' ts ts'} (w : Writes ds ts) (w' : Writes ds' ts') :
    Writes (ds ++ ds') (ts ++ ts') := by
  induction w with
  | nil => exact w'
  | inc h r ih => exact .inc h ih
  | bang w r ih => exact .bang w ih
  | plain w r ih => exact .plain w ih

theorem Writes.map {α : Type} (l : List α) (f : α → Directive) (k : String) (g : α → List Tok)
    (h : ∀ a ∈ l, Written (f a) k (g a)) :
    Writes (l.map f) ((l.map g).flatMap fun args => [.ident k, .bang, .paren args]) := by
  induction l with
  | nil => exact .nil
  | cons a l ih =>
    exact .bang (h a (by simp)) (ih fun b hb => h b (by simp [hb]))

theorem Writes.flag (b : Bool) (d : Directive) (k : String) (args : List Tok) (h : Written d k args) :
    Writes (if b then [d] else []) ((if b then [args] else []).flatMap fun args =>
      [.ident k, .bang, .paren args]) := by
  cases b
  · exact .nil
  · exact .bang h .nil

/-- The directives a printed configuration consists of. -/
def Config.directives (c : Config) : List Directive :=
  c.inclusions.map .inc ++ (c.allowlist.items.map .generate ++ (c.allowlist.nspaces.map .generateNs ++
  ((if c.allowlist = .all then [.generateAll] else []) ++
  ((if c.unsafePolicy = .allFunctionsUnsafe then [] else [.safety c.unsafePolicy]) ++
  (c.podRequests.map .pod ++ (c.blocklist.map .block ++ (c.opaquelist.map .opq ++
  (c.constructorBlocklist.map .blockConstructors ++ (c.instantiable.map .instantiable ++
  ((if c.parseOnly then [.parseOnly] else []) ++ ((if c.excludeImpls then [.excludeImpls] else []) ++
  ((if c.excludeUtilities then [.excludeUtilities] else []) ++ (c.modName.toList.map .name ++
  (c.concretes.map (fun e => .concrete e.1 e.2) ++
  (c.rustTypes.map (fun p => .rustType (p.headD "")) ++
  (c.subclasses.map (fun s => .subclass s.superclass s.subclass) ++
  (c.externRustFuns.map (fun f => .externRustFun f.path f.sig) ++
  ((c.externs.filter fun e => !e.2.isOpaque).map (fun e => .externCppType e.1 e.2.rustPath e.2.isOpaque) ++
  (c.externs.filter fun e => e.2.isOpaque).map (fun e =>
    .externCppType e.1 e.2.rustPath e.2.isOpaque)))))))))))))))))))

theorem writes_incs (l : List String) : Writes (l.map .inc)
    (l.flatMap fun h => [.pound, .ident "include", .lit h]) := by
  induction l with
  | nil => exact .nil
  | cons a l ih => exact .inc a ih

theorem print_writes {c : Config} (h : c.Printable) {ts : List Tok} (hp : c.print = some ts) :
    Writes c.directives ts := by
  unfold Config.print at hp
  split at hp
  · cases hp
  · simp only [Option.some.injEq] at hp
    subst hp
    unfold Config.directives Config.outputs
    simp only [List.flatMap_cons, List.flatMap_nil, List.nil_append]
    refine (writes_incs _).append ?_
    refine (Writes.map _ _ _ _ fun a _ => .generate a).append ?_
    refine (Writes.map _ _ _ _ fun a _ => .generateNs a).append ?_
    refine Writes.append ?_ ?_
    · split
      · exact .bang .generateAll .nil
      · exact .nil
    refine Writes.append ?_ ?_
    · cases c.unsafePolicy
      · exact .bang .safetyUnsafe .nil
      · exact .nil
      · exact .bang .safetyRefs .nil
    refine (Writes.map _ _ _ _ fun a _ => .pod a).append ?_
    refine (Writes.map _ _ _ _ fun a _ => .block a).append ?_
    refine (Writes.map _ _ _ _ fun a _ => .opq a).append ?_
    refine (Writes.map _ _ _ _ fun a _ => .blockConstructors a).append ?_
    refine (Writes.map _ _ _ _ fun a _ => .instantiable a).append ?_
    refine (Writes.flag _ _ _ _ .parseOnly).append ?_
    refine (Writes.flag _ _ _ _ .excludeImpls).append ?_
    refine (Writes.flag _ _ _ _ .excludeUtilities).append ?_
    refine (Writes.map _ _ _ _ fun a ha => .name a (h.modName a (by simpa using ha))).append ?_
    refine (Writes.map _ _ _ _ fun a ha => .concrete _ _ (h.concretes.2 a ha)).append ?_
    refine (Writes.map _ _ _ _ fun a ha => ?_).append ?_
    · obtain ⟨id, rfl, hid⟩ := h.rustTypes a ha
      exact .externRustType id hid
    refine (Writes.map _ _ _ _ fun a ha => .subclass _ _ (h.subclasses a ha)).append ?_
    refine (Writes.map _ _ _ _ fun a ha => .externRustFun _ _ (h.funPaths a ha)).append ?_
    refine (Writes.map _ _ _ _ fun a ha => ?_).append ?_
    · simp only [List.mem_filter, Bool.not_eq_true'] at ha
      rw [ha.2]
      exact .externCppType _ _ (h.externs.2 a ha.1)
    simp only [List.append_nil]
    refine Writes.map _ _ _ _ fun a ha => ?_
    simp only [List.mem_filter] at ha
    rw [ha.2]
    exact .externCppOpaqueType _ _ (h.externs.2 a ha.1)

theorem insert_fresh {κ α : Type} [DecidableEq κ] (m : AMap κ α) (k : κ) (v : α)
    (h : k ∉ m.keys) : m.insert k v = m ++ [(k, v)] := by
  induction m with
  | nil => rfl
  | cons e m ih =>
    obtain ⟨k', v'⟩ := e
    simp only [AMap.keys, List.map_cons, List.mem_cons, not_or] at h
    have h' : ¬ k' = k := fun e => h.1 e.symm
    simp [AMap.insert, h', ih h.2]

theorem foldl_insert_fresh {κ α : Type} [DecidableEq κ] (l m : AMap κ α)
    (h : AMap.WF (m ++ l)) : l.foldl (fun m e => m.insert e.1 e.2) m = m ++ l := by
  induction l generalizing m with
  | nil => simp
  | cons e l ih =>
    have hf : e.1 ∉ m.keys := by
      simp only [AMap.WF, AMap.keys, List.map_append, List.map_cons, List.nodup_append] at h
      intro hm
      exact h.2.2 _ hm _ (by simp) rfl
    simp only [List.foldl_cons]
    rw [insert_fresh _ _ _ hf, ih]
    · simp
    · simpa using h

theorem foldl_insert_nil {κ α : Type} [DecidableEq κ] (l : AMap κ α) (h : l.WF) :
    l.foldl (fun (m : AMap κ α) e => m.insert e.1 e.2) [] = l := by
  simpa using foldl_insert_fresh l [] (by simpa using h)

theorem split_wf {κ α : Type} (l : AMap κ α) (p : κ × α → Bool) (h : l.WF) :
    AMap.WF ((l.filter fun e => !p e) ++ l.filter p) := by
  have hp : List.Perm ((l.filter fun e => !p e) ++ l.filter p) l :=
    (List.perm_append_comm).trans (List.filter_append_perm p l)
  unfold AMap.WF AMap.keys at *
  exact (hp.map Prod.fst).nodup_iff.2 h

theorem split_get? {κ α : Type} [DecidableEq κ] (l : AMap κ α) (p : κ × α → Bool) (h : l.WF) (k : κ) :
    AMap.get? ((l.filter fun e => !p e) ++ l.filter p) k = AMap.get? l k := by
  have hw := split_wf l p h
  have hm : ∀ e, e ∈ ((l.filter fun e => !p e) ++ l.filter p) ↔ e ∈ l := by
    intro e
    simp only [List.mem_append, List.mem_filter]
    constructor
    · rintro (h | h) <;> exact h.1
    · intro h; cases hp : p e
      · exact Or.inl ⟨h, by simp⟩
      · exact Or.inr ⟨h, by simp⟩
  cases h1 : AMap.get? l k with
  | some v => exact AMap.mem_get? hw ((hm _).2 (AMap.get?_mem h1))
  | none =>
    cases h2 : AMap.get? ((l.filter fun e => !p e) ++ l.filter p) k with
    | none => rfl
    | some v =>
      rw [AMap.mem_get? h ((hm _).1 (AMap.get?_mem h2))] at h1; cases h1

theorem filterMap_none' {α β : Type} (l : List α) : l.filterMap (fun _ => (none : Option β)) = [] := by
  induction l <;> simp_all

theorem filterMap_some' {α : Type} (l : List α) : l.filterMap (fun a => some a) = l := by
  induction l <;> simp_all

theorem filterMap_ite {α β : Type} (p : Prop) [Decidable p] (a : α) (g : α → Option β) :
    (if p then [a] else []).filterMap g = if p then (g a).toList else [] := by
  split <;> cases h : g a <;> simp [h]

theorem filterMap_ite' {α β : Type} (p : Prop) [Decidable p] (a : α) (g : α → Option β) :
    (if p then [] else [a]).filterMap g = if p then [] else (g a).toList := by
  split <;> cases h : g a <;> simp [h]

theorem ite_nil_nil {α : Type} (p : Prop) [Decidable p] : (if p then ([] : List α) else []) = [] := by
  split <;> rfl

theorem filterMap_map_none {α β : Type} (l : List α) (f : α → Directive) (g : Directive → Option β)
    (h : ∀ a, g (f a) = none) : (l.map f).filterMap g = [] := by
  induction l <;> simp_all

theorem filterMap_map_some {α β : Type} (l : List α) (f : α → Directive) (g : Directive → Option β)
    (k : α → β) (h : ∀ a, g (f a) = some (k a)) : (l.map f).filterMap g = l.map k := by
  induction l <;> simp_all

theorem directives_entries (c : Config) : c.directives.filterMap Directive.entry =
    c.allowlist.items.map .item ++ c.allowlist.nspaces.map .nspace := by
  unfold Config.directives
  simp only [List.filterMap_append, List.filterMap_map, Function.comp_def, Directive.entry, filterMap_none',
    filterMap_ite, filterMap_ite', Option.toList_none, ite_nil_nil, List.nil_append, List.append_nil,
    List.filterMap_eq_map']

theorem items_map_append (l m : List String) :
    (Allowlist.specific (l.map .item ++ m.map .nspace)).items = l ∧
    (Allowlist.specific (l.map .item ++ m.map .nspace)).nspaces = m := by
  simp [Allowlist.items, Allowlist.nspaces, List.filterMap_append, Function.comp_def,
    filterMap_none']

theorem directives_all (c : Config) : .generateAll ∈ c.directives ↔ c.allowlist = .all := by
  unfold Config.directives
  simp

theorem directives_conflict {c : Config} : ¬ Conflict c.directives := by
  rintro ⟨h1, d, h2, h3⟩
  rw [directives_all] at h1
  obtain ⟨e, he⟩ := Option.isSome_iff_exists.1 h3
  have : e ∈ c.directives.filterMap Directive.entry := List.mem_filterMap.2 ⟨d, h2, he⟩
  rw [directives_entries, h1] at this
  simp [Allowlist.items, Allowlist.nspaces] at this

/-- **C17 (partial).** A printable configuration is read back as the same configuration.
Missing: configurations with a Rust type in a module, or a discovered function with a receiver; see
`print_parse_module_false` and `print_parse_receiver_false`. -/
theorem print_parse_partial {c : Config} (h : c.Printable) :
    ∃ ts c', c.print = some ts ∧ parseConfig ts = .ok c' ∧ c'.SameAs c := by
  have hp : ∃ ts, c.print = some ts := by
    unfold Config.print
    split
    · rename_i l hl; exact absurd hl (h.allowlist l)
    · exact ⟨_, rfl⟩
  obtain ⟨ts, hp⟩ := hp
  refine ⟨ts, meaning c.directives, hp, (parse_config_ok_iff _ _).2
    ⟨_, print_writes h hp, directives_conflict, rfl⟩, ?_⟩
  have hal : (meaning c.directives).allowlist =
      if c.allowlist = .all then .all
      else if (c.allowlist.items.map AllowlistEntry.item ++
        c.allowlist.nspaces.map AllowlistEntry.nspace).isEmpty then .unspecified []
      else .specific (c.allowlist.items.map .item ++ c.allowlist.nspaces.map .nspace) := by
    simp only [meaning, directives_all, directives_entries]
  constructor
  case allowAll =>
    rw [hal]
    split
    · simp [*]
    · split <;> simp [*]
  case allowItems =>
    rw [hal]
    split
    · simp [*]
    · split
      · rename_i h1 h2
        simp at h2
        simp [Allowlist.items] at h2 ⊢
        exact h2.1
      · exact (items_map_append _ _).1
  case allowNspaces =>
    rw [hal]
    split
    · simp [*]
    · split
      · rename_i h1 h2
        simp at h2
        simp [Allowlist.nspaces] at h2 ⊢
        exact h2.2
      · exact (items_map_append _ _).2
  case parseOnly => simp [meaning, Config.directives]
  case excludeImpls => simp [meaning, Config.directives]
  case excludeUtilities => simp [meaning, Config.directives]
  case unsafePolicy =>
    simp only [meaning, Config.directives, List.filterMap_append, List.filterMap_map, Function.comp_def,
      filterMap_none', filterMap_ite, filterMap_ite', Option.toList_none, ite_nil_nil, List.nil_append,
      List.append_nil]
    split <;> simp [*]
  case modName =>
    simp only [meaning, Config.directives, List.filterMap_append, List.filterMap_map, Function.comp_def,
      filterMap_none', filterMap_ite, filterMap_ite', Option.toList_none, ite_nil_nil, List.nil_append,
      List.append_nil]
    cases c.modName <;> simp
  case rustTypes =>
    simp only [meaning, Config.directives, List.filterMap_append, List.filterMap_map, Function.comp_def,
      filterMap_none', filterMap_ite, filterMap_ite', Option.toList_none, ite_nil_nil, List.nil_append,
      List.append_nil, List.filterMap_eq_map']
    have : ∀ l : List RustPath, (∀ p ∈ l, ∃ id, p = [id] ∧ id ∉ rustReserved) →
        l.map (fun p => [p.headD ""]) = l := by
      intro l hl
      induction l with
      | nil => rfl
      | cons p l ih =>
        obtain ⟨id, rfl, -⟩ := hl p (by simp)
        simpa using ih fun q hq => hl q (by simp [hq])
    exact this _ h.rustTypes
  case externRustFuns =>
    simp only [meaning, Config.directives, List.filterMap_append, List.filterMap_map, Function.comp_def,
      filterMap_none', filterMap_ite, filterMap_ite', Option.toList_none, ite_nil_nil, List.nil_append,
      List.append_nil, List.filterMap_eq_map']
    have : ∀ l : List RustFun, (∀ f ∈ l, f.hasReceiver = false) →
        l.map (fun f => (⟨f.path, f.sig, false⟩ : RustFun)) = l := by
      intro l hl
      induction l with
      | nil => rfl
      | cons p l ih =>
        have := hl p (by simp)
        cases p; simp only at this; subst this
        simpa using ih fun q hq => hl q (by simp [hq])
    exact this _ h.receivers
  case concretes =>
    simp only [meaning, Config.directives, List.filterMap_append, List.filterMap_map, Function.comp_def,
      filterMap_none', filterMap_ite, filterMap_ite', Option.toList_none, ite_nil_nil, List.nil_append,
      List.append_nil, List.filterMap_eq_map', List.map_id']
    exact foldl_insert_nil _ h.concretes.1
  case externs =>
    intro k
    simp only [meaning, Config.directives, List.filterMap_append, List.filterMap_map, Function.comp_def,
      filterMap_none', filterMap_ite, filterMap_ite', Option.toList_none, ite_nil_nil, List.nil_append,
      List.append_nil, List.filterMap_eq_map', List.map_id']
    rw [foldl_insert_nil _ (split_wf _ _ h.externs.1)]
    exact split_get? _ _ h.externs.1 k
  all_goals
    simp only [meaning, Config.directives, List.filterMap_append, List.filterMap_map, Function.comp_def,
      filterMap_none', filterMap_ite, filterMap_ite', Option.toList_none, ite_nil_nil, List.nil_append,
      List.append_nil, List.filterMap_eq_map', List.map_id', filterMap_some']

/-- A configuration which meets the hypotheses, with most kinds of directive. -/
example : Config.Printable ({
    inclusions := ["a.h"]
    unsafePolicy := .allFunctionsSafe
    allowlist := .specific [.nspace "n", .item "A"], podRequests := ["P"], modName := some "bridge_mod",
    concretes := [("B<int>", "BInt")], rustTypes := [["R"]],
    subclasses := [⟨"Sup", "Sub"⟩], externRustFuns := [⟨["m", "f"], ⟨"f", "()", none⟩, false⟩],
    externs := [("O", ⟨["crate", "O"], true⟩), ("T", ⟨["t", "T"], false⟩)] } : Config) := by
  constructor <;> simp [AMap.WF, AMap.keys, rustReserved, RustPath.OkType, RustPath.Ok, pathKeywords]

/-- **C17 is false** of discovered Rust types which lie in a module: the printed configuration cannot be
read back. -/
theorem print_parse_module_false : ∃ (c : Config) (ts : List Tok),
    c.rustTypes = [["m", "R"]] ∧ c.print = some ts ∧ parseConfig ts = .error .leftover :=
  ⟨{ rustTypes := [["m", "R"]], allowlist := .all }, _, rfl, rfl, by
    simp [Config.outputs, Allowlist.items, Allowlist.nspaces, parseConfig, parseLoop, runDirective, directive,
      rustReserved, setAllowAll, Allowlist.setAll, Except.map, pathToks, dRustType, pIdent, bind,
      Except.bind]⟩

/-- **C17 is false** of discovered methods: it is lost that the function has a receiver. -/
theorem print_parse_receiver_false : ∃ (c : Config) (ts : List Tok) (c' : Config),
    c.externRustFuns = [⟨["m", "f"], ⟨"f", "(&self)", none⟩, true⟩] ∧ c.print = some ts ∧
    parseConfig ts = .ok c' ∧ c'.externRustFuns = [⟨["m", "f"], ⟨"f", "(&self)", none⟩, false⟩] :=
  ⟨{ externRustFuns := [⟨["m", "f"], ⟨"f", "(&self)", none⟩, true⟩], allowlist := .all }, _,
    { externRustFuns := [⟨["m", "f"], ⟨"f", "(&self)", none⟩, false⟩], allowlist := .all }, rfl, rfl, by
    simp [Config.outputs, Allowlist.items, Allowlist.nspaces, parseConfig, parseLoop, runDirective, directive,
      rustReserved, setAllowAll, Allowlist.setAll, Except.map, pathToks, dExternRustFun, pIdent, pPath,
      pPathRest, pComma, pSig, bind, Except.bind], rfl⟩

/-- **C17 is false** of a settled allowlist with no entries: it is read back as not settled, and a
configuration in that state makes printing (and every question about the allowlist) panic. -/
theorem print_parse_empty_false : ∃ (c : Config) (ts : List Tok) (c' : Config),
    c.allowlist = .specific [] ∧ c.print = some ts ∧ parseConfig ts = .ok c' ∧
    c'.allowlist = .unspecified [] ∧ c'.print = none :=
  ⟨{ allowlist := .specific [] }, _, {}, rfl, rfl, rfl, rfl, rfl⟩

/-! ## C18 (first sentence): the safety policy -/

/-- **C18.** Every safety policy is read back as it was printed. -/
theorem policy_round_trip (p : UnsafePolicy) : pPolicy p.toks = .ok (p, []) := by
  cases p <;> simp [UnsafePolicy.toks, pPolicy, rustReserved]

/-- **C18.** The accepted policies, exactly. -/
theorem policy_ok_iff (ts : List Tok) (p : UnsafePolicy) :
    pPolicy ts = .ok (p, []) ↔
      (p = .allFunctionsSafe ∧ (ts = [.ident "unsafe"] ∨ ts = [.ident "unsafe_ffi"])) ∨
      (p = .referencesWrappedAllFunctionsSafe ∧ ts = [.ident "unsafe_references_wrapped"]) ∨
      (p = .allFunctionsUnsafe ∧ ts = []) := by
  constructor
  · intro h
    cases pPolicy_ok h <;> simp
  · rintro (⟨rfl, rfl | rfl⟩ | ⟨rfl, rfl⟩ | ⟨rfl, rfl⟩) <;> simp [pPolicy, rustReserved]

/-! ## C54 -/

/-- **C54.** A path parses back to itself, whatever follows it, unless that is another `::`. -/
theorem path_round_trip (p : RustPath) (h : p.Ok) (r : List Tok) (hr : NoSep r) :
    pPath (pathToks p ++ r) = .ok (p, r) :=
  pPath_ok.2 ⟨hr, h, rfl⟩

/-- **C54.** Only printed paths parse. -/
theorem path_parse_only {ts r : List Tok} {p : RustPath} (h : pPath ts = .ok (p, r)) :
    p.Ok ∧ ts = pathToks p ++ r := (pPath_ok.1 h).2

example : pPath [.ident "a", .pathSep, .ident "b", .comma] = .ok (["a", "b"], [.comma]) :=
  path_round_trip ["a", "b"] (by simp [RustPath.Ok, rustReserved]) _ (by simp [NoSep])

end Verif
