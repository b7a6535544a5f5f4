import Verif.RsVisibleProps
import Verif.FnNamesProps

/-!
# The names each generated module defines (C74, C28)

Every namespace becomes a module in the generated Rust, and Rust refuses a module which defines a name twice. Here is
which names each module defines, exactly, in terms of the items the conversion delivers, and when no name is defined twice.

Types, functions and modules are put in one table of names here, though Rust has one for types and modules and another for
functions: what is shown not to clash here does not clash there.
-/

set_option autoImplicit false

namespace Verif

/-! ## Specification -/

/-- The names an item gives meaning to in the module it is in. -/
def OutDecl.names : OutDecl → List Ident
  | .useBindgen p | .useBridge p none => p.getLast?.toList
  | .useBridge _ (some n) | .opaqueStruct n _ _ | .useAs _ n | .failed n _ | .trait n _ _ | .holder n _ => [n]
  | .fn g => [g.name]
  | _ => []

/-- As above, for everything which can be in a module. -/
def OutItem.names {κ τ μ : Type} : OutItem OutDecl κ τ μ → List Ident
  | .item i => i.names
  | .imports => ["cxxbridge", "output", "bindgen"]
  | .mod n _ => [n]
  | _ => []

/-- The names an item at the very top gives meaning to. -/
def GlobalDecl.names : GlobalDecl → List Ident
  | .toCppString => ["ToCppString"]
  | .use p => p.getLast?.toList
  | .removeOwnership n _ => [n]
  | .subclassFn f => [f.name]

/-- What the outermost module has whatever the header is: `mod bindgen`, `mod cxxbridge`, `use bindgen::root` and
`use super::… as output`. -/
def outermostNames : List Ident := ["bindgen", "cxxbridge", "root", "output"]

/-- All the names the module of a path defines, as often as it does. -/
def RsFile.namesIn (f : RsFile) (p : List String) : Option (List Ident) :=
  (followMods f.output p).map fun c =>
    (if p = [] then f.globals.flatMap GlobalDecl.names ++ outermostNames else []) ++ c.flatMap OutItem.names

/-- The traits beside a class which Rust has subclasses of. -/
def traitNames (cfg : Config) (apis : List FnApi) (q : QName) : List Ident :=
  if ∃ s ∈ cfg.subclasses, QName.ofCppName s.superclass = q then
    (if (methodsOf apis q).all (·.isPureVirtual) then [] else [q.name ++ "_supers"]) ++ [q.name ++ "_methods"]
  else []

/-- The names an item is to have in the module of its namespace. -/
def exposedNames (cfg : Config) (apis : List FnApi) : FnApi → List Ident
  | .function _ _ a =>
    if a.kind = .function ∧ a.ignoreReason = none ∧ a.externallyCallable = true then [a.rustName] else []
  | .stringConstructor _ => ["make_string"]
  | .const n _ | .typedef n .. | .externCppType n .. => [n.name.name]
  | .enum n _ | .concreteType n .. | .forwardDeclaration n _ | .opaqueTypedef n _ =>
    traitNames cfg apis n.name ++ [n.name.name]
  | .struct n _ an =>
    if an.pod.kind = .abstract ∧ 0 < an.pod.numGenerics then [] else traitNames cfg apis n.name ++ [n.name.name]
  | .subclass n _ => [n.cppPeer.name, n.holder]
  | .ignoredItem _ _ (some (.item id)) | .ignoredItem _ _ (some (.sanitizedItem id)) => [id]
  | _ => []

/-! ## Following paths -/

section
variable {ι κ τ μ : Type}

theorem followMods_append (l : List (OutItem ι κ τ μ)) (p q : List String) :
    followMods l (p ++ q) = (followMods l p).bind (followMods · q) := by
  induction p generalizing l with
  | nil => rfl
  | cons n p ih =>
    rw [List.cons_append, followMods, followMods]
    split
    · exact ih _
    · rfl

theorem mem_modNames {l : List (OutItem ι κ τ μ)} {n : String} :
    n ∈ modNames l ↔ (followMods l [n]).isSome = true := by
  rw [followMods]
  induction l with
  | nil => simp [modNames]
  | cons x l ih =>
    rw [List.findSome?_cons]
    cases x with
    | mod k c =>
      rw [modNames, OutItem.modNamed]
      by_cases h : n = k
      · rw [if_pos h]; simp [h, followMods]
      · rw [if_neg h, List.mem_cons, or_iff_right h]; exact ih
    | item | impl | traitImpl | imports => exact ih

theorem modNames_append (l r : List (OutItem ι κ τ μ)) : modNames (l ++ r) = modNames l ++ modNames r := by
  induction l with
  | nil => rfl
  | cons x l ih =>
    cases x with
    | mod k c => exact congrArg (k :: ·) ih
    | item | impl | traitImpl | imports => exact ih

theorem modNames_none {l : List (OutItem ι κ τ μ)} (h : ∀ x ∈ l, x.isMod = false) : modNames l = [] := by
  induction l with
  | nil => rfl
  | cons x l ih =>
    cases x with
    | mod k c => exact absurd (h _ List.mem_cons_self) (by simp [OutItem.isMod])
    | item | impl | traitImpl | imports => exact ih fun x hx => h x (List.mem_cons_of_mem _ hx)

end

theorem names_of_mods {κ τ μ : Type} {l : List (OutItem OutDecl κ τ μ)} (h : ∀ x ∈ l, x.isMod = true) :
    l.flatMap OutItem.names = modNames l := by
  induction l with
  | nil => rfl
  | cons x l ih =>
    have hl := ih fun y hy => h y (List.mem_cons_of_mem _ hy)
    cases x with
    | mod k c => rw [List.flatMap_cons, hl]; rfl
    | item | impl | traitImpl | imports => exact absurd (h _ List.mem_cons_self) (by simp [OutItem.isMod])

/-! ## What each item contributes -/

theorem bindgenUsePath_last (q : QName) : (bindgenUsePath q).getLast? = some q.name := by
  show (outputModRoot q.ns ++ q.bindgenPath).getLast? = some q.name
  rw [show outputModRoot q.ns ++ q.bindgenPath = (outputModRoot q.ns ++ "bindgen" :: "root" :: q.ns) ++ [q.name] by
    simp [QName.bindgenPath, QName.segs]]
  exact List.getLast?_concat

theorem cxxUsePath_last (q : QName) : (cxxUsePath q).getLast? = some q.name := by
  rw [cxxUsePath]; exact List.getLast?_concat

theorem trait_names {cfg : Config} {apis : List FnApi} {q : QName} {traits : List OutDecl}
    (h : superclassTraits q (AMap.get? (superclassMethods cfg apis) q) = some traits) :
    traits.flatMap OutDecl.names = traitNames cfg apis q := by
  rw [superclass_methods] at h
  rw [traitNames]
  split at h
  · rename_i hs
    rw [if_pos hs]
    rw [superclassTraits] at h
    obtain ⟨l, hl, rfl⟩ := Option.map_eq_some_iff.1 h
    have hsup := (trait_lists (mapM_all2 hl)).2
    dsimp only
    have hiff : l.filterMap (·.1) = [] ↔ (methodsOf apis q).all (·.isPureVirtual) = true := by
      rw [← List.length_eq_zero_iff, ← hsup.length_eq, List.length_eq_zero_iff, List.filter_eq_nil_iff, List.all_eq_true]
      simp
    rw [supers_name, methods_name]
    by_cases hp : (methodsOf apis q).all (·.isPureVirtual) = true
    · rw [if_neg (by simpa using hiff.2 hp), if_pos hp]; rfl
    · rw [if_pos (fun e => hp (hiff.1 e)), if_neg hp]; rfl
  · rename_i hs
    rw [if_neg hs, superclassTraits] at *
    rw [← Option.some.inj h]; rfl

/-- A function which keeps the name the bridge has for it, or is brought out of it under another, is known by its name in
Rust. -/
def NamedRight (n : ApiName) (a : FnAnalysis) : Prop :=
  a.kind = .function → a.rustWrapperNeeded = false → match a.renameStrategy with
    | .renameInOutputMod m => m = a.rustName
    | _ => n.name.name = a.rustName

theorem item_names {hash : Config → Nat} {policy : UnsafePolicy} {cfg : Config} {apis : List FnApi} {a : FnApi}
    {c : ApiCode} (hg : genApi (RsEnv.ofApis hash policy cfg apis) a = some c)
    (hn : ∀ n f an, a = .function n f an → NamedRight n an) :
    c.piece.items.flatMap OutDecl.names = exposedNames cfg apis a := by
  cases item_code hg with
  | @type kind mv ds g traits _ hi ht hc =>
    have hx : exposedNames cfg apis a =
        if kind = .abstract ∧ 0 < g then [] else traitNames cfg apis a.name ++ [a.name.name] := by
      cases hi <;> first | rfl | (rw [exposedNames, if_neg]; rfl; rintro ⟨h, h'⟩; first | cases h | cases h')
    have ht' := trait_names (cfg := cfg) (apis := apis) ht
    rw [hx]
    cases hc with
    | pod =>
      rw [if_neg (fun h => by cases h.1)]
      simp [List.flatMap_append, ht', OutDecl.names, bindgenUsePath_last]
    | nonPod h =>
      rw [if_neg (fun h => absurd h.2 (Nat.lt_irrefl _))]
      simp [List.flatMap_append, ht', OutDecl.names]
    | abstract =>
      rw [if_neg (fun h => absurd h.2 (Nat.lt_irrefl _))]
      simp [List.flatMap_append, ht', OutDecl.names, cxxUsePath_last]
    | podGeneric h =>
      rw [if_neg (fun h => by cases h.1)]
      simp [List.flatMap_append, ht', OutDecl.names, bindgenUsePath_last]
    | nonPodGeneric hk h =>
      rw [if_neg (fun h => by rcases hk with rfl | rfl <;> cases h.1)]
      simp [List.flatMap_append, ht', OutDecl.names]
    | abstractGeneric h => rw [if_pos ⟨rfl, h⟩]; rfl
  | makeString n ha => subst ha; rfl
  | fn n f an r ha hr =>
    subst ha
    have hn := hn n f an rfl
    rw [exposedNames]
    rcases fn_code hr with ⟨hno, rfl⟩ | ⟨hok, b, -, -, -, hp⟩
    · rw [if_neg]
      · rfl
      · rintro ⟨-, h1, h2⟩
        rw [h1, h2] at hno
        cases hno
    · rw [Bool.or_eq_false_iff] at hok
      have h1 : an.ignoreReason = none := by
        cases h : an.ignoreReason with
        | none => rfl
        | some _ => rw [h] at hok; cases hok.1
      have h2 : an.externallyCallable = true := by simpa using hok.2
      rw [fnPiece] at hp
      split at hp
      · split at hp <;> obtain ⟨x, hx, hpe⟩ := Option.map_eq_some_iff.1 hp <;> rename_i hk
        · rw [if_neg (by rw [hk]; rintro ⟨h, -⟩; cases h), FnResult.code, ← hpe]; rfl
        · rw [if_neg (by rw [hk]; rintro ⟨h, -⟩; cases h), FnResult.code, ← hpe]; rfl
        · rw [if_neg (by rw [hk]; rintro ⟨h, -⟩; cases h), FnResult.code, ← hpe]; rfl
        · rw [if_pos ⟨hk, h1, h2⟩, FnResult.code, ← hpe]
          rw [FnGen.functionImpl] at hx
          obtain ⟨parts, -, rfl⟩ := Option.map_eq_some_iff.1 hx
          rfl
      · rename_i hw
        cases hk : an.kind with
        | function =>
          rw [hk] at hp
          rw [if_pos ⟨rfl, h1, h2⟩, FnResult.code, ← Option.some.inj hp]
          have hn := hn hk (by simpa using hw)
          cases hs : an.renameStrategy with
          | none => rw [hs] at hn; simp [FnOutItem.toDecl, OutDecl.names, cxxUsePath_last, hn]
          | renameInOutputMod m => rw [hs] at hn; simp only at hn; simp [FnOutItem.toDecl, OutDecl.names, hn]
          | renameUsingWrapperFunction =>
            rw [hs] at hn; simp [FnOutItem.toDecl, OutDecl.names, cxxUsePath_last, hn]
        | method k ty => rw [hk] at hp; rw [if_neg (fun h => by cases h.1), FnResult.code, ← Option.some.inj hp]; rfl
        | traitMethod k ty d => rw [hk] at hp; rw [if_neg (fun h => by cases h.1), FnResult.code, ← Option.some.inj hp]; rfl
  | bindgen ha =>
    rcases ha with ⟨n, i, rfl⟩ | ⟨n, i, o, an, rfl⟩ <;> 
      (simp only [List.flatMap_singleton, OutDecl.names, bindgenUsePath_last]; rfl)
  | ctype n q ha => subst ha; rfl
  | rustType n s p ha hp hl => subst ha; rfl
  | rustFn n ds f ha hf hn => subst ha; rfl
  | subclassFn n sub d c ha hc =>
    subst ha
    obtain ⟨_, _, -, -, rfl⟩ := subclassFn_code hc
    rfl
  | subclass n sup c ha hc =>
    subst ha
    obtain ⟨supers, hs, -, -, -, -, -, -, hit⟩ := subclass_code hc
    have hsup : supers.flatMap OutDecl.names = [] := by
      rw [List.flatMap_eq_nil_iff]
      intro i hi
      obtain ⟨t, s, fns, rfl⟩ := supers_only hs hi
      rfl
    rw [hit]
    simp only [List.flatMap_append, hsup]
    split <;> rfl
  | externCpp n p o x ha hx hn => subst ha; rfl
  | failed n err ctx ha => subst ha; cases ctx <;> rfl
  | nothing ha => rcases ha with ⟨n, err, rfl⟩ | ⟨n, d, rfl⟩ <;> rfl

/-! ## What each module contains -/

theorem zip_pieces_items {cfg : Config} {g : FnApi → Option ApiCode} {x : FnApi → List Ident} {p : List String}
    {l : List FnApi} {r : List ApiCode} (h : All2 (fun a c => g a = some c) l r)
    (hx : ∀ a ∈ l, ∀ c, g a = some c → c.piece.items.flatMap OutDecl.names = x a) :
    ((((l.map Api.name).zip (r.map (·.piece))).filter fun a => a.1.ns = p).map (·.2)).flatMap
      (fun y => y.items.flatMap OutDecl.names) = (l.filter fun a => a.name.ns = p).flatMap x := by
  induction h with
  | nil => rfl
  | @cons a c l r hac _ ih =>
    have ih := ih fun a ha => hx a (List.mem_cons_of_mem _ ha)
    rw [List.map_cons, List.map_cons, List.zip_cons_cons, List.filter_cons, List.filter_cons]
    by_cases hp : a.name.ns = p
    · rw [if_pos (by simpa using hp), if_pos (by simpa using hp), List.map_cons, List.flatMap_cons, List.flatMap_cons, ih,
        hx a List.mem_cons_self c hac]
    · rw [if_neg (by simpa using hp), if_neg (by simpa using hp), ih]

section
variable {hash : Config → Nat} {policy : UnsafePolicy} {cfg : Config} {includes : List String}
  {headerName : Option String} {apis : List FnApi} {f : RsFile} {codes : List ApiCode}

/-- **C74** (and C28): there is a module for every namespace something is in, and none besides. The names it defines are
those of the items of that namespace, in order, and those of the namespaces within it, each of them once; and before
these, the three which it imports, or in the outermost module the things made for everything. -/
theorem names_in_module (P : RsParts hash policy cfg includes headerName apis f codes)
    (hn : ∀ n fn an, .function n fn an ∈ apis → NamedRight n an) (p : List String) :
    ((f.namesIn p).isSome = true ↔ p = [] ∨ ∃ a ∈ apis, p <+: a.name.ns) ∧
    ∀ l, f.namesIn p = some l → ∃ kids, kids.Nodup ∧ (∀ n, n ∈ kids ↔ ∃ a ∈ apis, p ++ [n] <+: a.name.ns) ∧
      l = (if p = [] then f.globals.flatMap GlobalDecl.names ++ outermostNames else ["cxxbridge", "output", "bindgen"]) ++
        (apis.filter fun a => a.name.ns = p).flatMap (exposedNames cfg apis) ++ kids := by
  obtain ⟨out, ho, hex, hin⟩ := output_modules (l := (apis.map Api.name).zip (codes.map (·.piece))) (fuel := nsFuel apis)
    (fun a ha => by
      obtain ⟨x, hx, e⟩ := List.mem_map.1 (List.of_mem_zip ha).1
      rw [← e]
      exact mem_nsFuel hx) (Nat.succ_pos _)
  have hout := Option.some.inj (ho.symm.trans P.output)
  subst hout
  have hlen : (codes.map (·.piece)).length = (apis.map Api.name).length := by
    rw [List.length_map, List.length_map]; exact P.each.length_eq.symm
  have hmem : ∀ q : List String, (∃ a ∈ (apis.map Api.name).zip (codes.map (·.piece)), q <+: a.1.ns) ↔
      ∃ a ∈ apis, q <+: a.name.ns := by
    intro q
    constructor
    · rintro ⟨y, hy, hq⟩
      obtain ⟨a, ha, e⟩ := List.mem_map.1 (List.of_mem_zip hy).1
      exact ⟨a, ha, e ▸ hq⟩
    · rintro ⟨a, ha, hq⟩
      obtain ⟨c, -, hc⟩ := P.each.left ha
      obtain ⟨y, hy, -⟩ := List.mem_map.1 ((mem_zip_pieces P.each (p := a.name.ns)).2 ⟨a, ha, rfl, c, hc, rfl⟩)
      obtain ⟨hy1, hy2⟩ := List.mem_filter.1 hy
      exact ⟨y, hy1, by rw [of_decide_eq_true hy2]; exact hq⟩
  constructor
  · rw [RsFile.namesIn, Option.isSome_map, hex, hmem]
  · intro l hl
    obtain ⟨c, hc, rfl⟩ := Option.map_eq_some_iff.1 hl
    obtain ⟨direct, mods, hcm, ⟨impls, traits, hd, -⟩, hmods, hnd⟩ := hin p c hc
    have hdn : modNames ((if p = [] then [] else [.imports]) ++ direct) = [] := by
      refine modNames_none fun x hx => ?_
      rw [hd] at hx
      simp only [List.mem_append, List.mem_map] at hx
      rcases hx with hx | ((⟨x, hx, rfl⟩ | ⟨x, hx, rfl⟩) | ⟨x, hx, rfl⟩)
      · split at hx
        · cases hx
        · rw [List.mem_singleton.1 hx]; rfl
      · rfl
      · rfl
      · rfl
    refine ⟨modNames mods, hnd, fun n => ?_, ?_⟩
    · have : n ∈ modNames mods ↔ n ∈ modNames c := by rw [hcm, modNames_append, hdn, List.nil_append]
      rw [this, mem_modNames]
      have happ := followMods_append f.output p [n]
      rw [hc, Option.bind_some] at happ
      rw [← happ, hex, hmem, or_iff_right (by simp)]
    · have himpl : (impls.map fun g => (OutItem.impl g.1 g.2 : OutItem OutDecl Ident TraitKey ImplMember)).flatMap
          OutItem.names = [] := by
        rw [List.flatMap_eq_nil_iff]; intro x hx; obtain ⟨y, -, rfl⟩ := List.mem_map.1 hx; rfl
      have htr : (traits.map fun g => (OutItem.traitImpl g.1 g.2 : OutItem OutDecl Ident TraitKey ImplMember)).flatMap
          OutItem.names = [] := by
        rw [List.flatMap_eq_nil_iff]; intro x hx; obtain ⟨y, -, rfl⟩ := List.mem_map.1 hx; rfl
      have hitems := zip_pieces_items (cfg := cfg) (p := p) (x := exposedNames cfg apis) P.each fun a ha c hc =>
        item_names hc fun n fn an e => hn n fn an (e ▸ ha)
      rw [hcm, hd, List.flatMap_append, List.flatMap_append, List.flatMap_append, List.flatMap_append, himpl, htr,
        names_of_mods hmods, List.append_nil, List.append_nil, List.flatMap_map, List.flatMap_assoc]
      rw [show (fun x : RsPiece OutDecl Ident TraitKey ImplMember =>
          x.items.flatMap fun a => (OutItem.item a : OutItem OutDecl Ident TraitKey ImplMember).names) =
        fun y => y.items.flatMap OutDecl.names from rfl, hitems]
      by_cases hp : p = []
      · simp [hp]
      · simp [hp, OutItem.names]

end

/-! ## When no name is defined twice -/

/-- Items which are known in Rust by a name which is not that of the item itself: functions, because of overloads, what
makes strings, and what stands for things which could not be bound. -/
def NamedOtherwise : FnApi → Prop
  | .function .. | .stringConstructor _ | .ignoredItem .. => True
  | _ => False

/-- The names in a module which are there whatever the header is. -/
def fixedNames (path : List String) : List Ident :=
  if path = [] then "ToCppString" :: outermostNames else ["cxxbridge", "output", "bindgen"]

/-- What must be so for the names of a module to be distinct. -/
structure ModuleApart (cfg : Config) (apis : List FnApi) (path : List String) : Prop where
  /-- Nothing in the namespace is called like what is there anyway. -/
  fixed : ∀ x ∈ fixedNames path, (∀ a ∈ apis, a.name.ns = path → x ∉ exposedNames cfg apis a) ∧
    ∀ a ∈ apis, ¬ path ++ [x] <+: a.name.ns
  /-- Nothing in the namespace is called like a namespace within it. -/
  kids : ∀ a ∈ apis, a.name.ns = path → ∀ x ∈ exposedNames cfg apis a, ∀ b ∈ apis, ¬ path ++ [x] <+: b.name.ns
  /-- What is not called what it is called in C++ is called like nothing else, functions apart. -/
  others : ∀ a ∈ apis, ∀ b ∈ apis, a.name.ns = path → b.name.ns = path → a.name ≠ b.name → NamedOtherwise a →
    (∀ n f an n' f' an', ¬ (a = .function n f an ∧ b = .function n' f' an')) →
    ∀ x ∈ exposedNames cfg apis a, x ∉ exposedNames cfg apis b
  /-- No function of the namespace is to be called what another is to be called with a number after it. -/
  numbered : ∀ n f an n' f' an', .function n f an ∈ apis → .function n' f' an' ∈ apis → n.name.ns = path →
    n'.name.ns = path → ∀ b b' k, IdealName f.ident n.cppName b → IdealName f'.ident n'.cppName b' → 0 < k → b ≠ b' ++ dec k

/-- The items by which something written in Rust is offered to C++. -/
def OffersRust : FnApi → Prop
  | .rustType .. | .rustFn .. | .subclass .. | .rustSubclassFn .. => True
  | _ => False

theorem exposed_own {cfg : Config} {apis : List FnApi} {a : FnApi} (hs : cfg.subclasses = []) (ho : ¬ NamedOtherwise a)
    (hr : ¬ OffersRust a) : ∀ x ∈ exposedNames cfg apis a, x = a.name.name := by
  have ht : ∀ q, traitNames cfg apis q = [] := by
    intro q
    rw [traitNames, hs, if_neg]
    rintro ⟨s, h, -⟩
    cases h
  intro x hx
  cases a with
  | function | stringConstructor | ignoredItem => exact absurd trivial ho
  | subclass => exact absurd trivial hr
  | const | typedef | externCppType => exact List.mem_singleton.1 hx
  | enum | concreteType | forwardDeclaration | opaqueTypedef =>
    rw [exposedNames, ht] at hx
    exact List.mem_singleton.1 hx
  | struct n d an =>
    rw [exposedNames, ht] at hx
    split at hx
    · cases hx
    · exact List.mem_singleton.1 hx
  | rustType | rustFn | rustSubclassFn | subclassTraitItem | ctype => cases hx

theorem exposed_nodup {cfg : Config} {apis : List FnApi} {a : FnApi} (hs : cfg.subclasses = []) (hr : ¬ OffersRust a) :
    (exposedNames cfg apis a).Nodup := by
  have ht : ∀ q, traitNames cfg apis q = [] := by
    intro q
    rw [traitNames, hs, if_neg]
    rintro ⟨s, h, -⟩
    cases h
  cases a with
  | function n f an => rw [exposedNames]; split <;> simp
  | ignoredItem n e c => rcases c with _ | (_ | _ | _) <;> simp [exposedNames]
  | subclass => exact absurd trivial hr
  | enum | concreteType | forwardDeclaration | opaqueTypedef => rw [exposedNames, ht]; simp
  | struct n d an => rw [exposedNames, ht]; split <;> simp
  | _ => simp [exposedNames]

namespace ConvertStages

variable {fuel : Nat} {hash : Config → Nat} {sigOf : RustSig → RustFnSig} {policy : UnsafePolicy} {cfg : Config}
  {force : Bool} {cb : Callbacks} {items : List BindgenItem} {out : FnApiVec}
  (p : ConvertStages fuel hash sigOf policy cfg force cb items out)
include p

/-- Every function delivered is known by its name in Rust. -/
theorem named_right {n : ApiName} {f : FuncToConvert} {a : FnAnalysis} (h : .function n f a ∈ out.apis) : NamedRight n a := by
  obtain ⟨-, -, -, env, s, s', name, soph, pre, hrun⟩ := p.delivered_function h
  intro hk hw
  have hname := (name_kept hrun).1
  rcases visible_name hrun with ⟨hv, -⟩ | ⟨-, hw'⟩
  · rw [FnAnalysis.visibleName] at hv
    cases hs : a.renameStrategy with
    | none => rw [hs] at hv; simp only; rw [← Option.some.inj hv, hname]
    | renameInOutputMod m => rw [hs] at hv; exact Option.some.inj hv
    | renameUsingWrapperFunction => rw [hs] at hv; cases hv
  · rw [hw] at hw'; cases hw'

/-- **C65 (names differ, partial)**: two functions a run delivers which Rust code sees in the same place – free functions
of a namespace, or methods of a class – have different names, unless one of them is to be called what the other is to be
called followed by a number. What is missing is that case: see `numbered_names_false`. -/
theorem delivered_names_partial {n n' : ApiName} {f f' : FuncToConvert} {a a' : FnAnalysis}
    (h : .function n f a ∈ out.apis) (h' : .function n' f' a' ∈ out.apis) (hne : n.name ≠ n'.name)
    (hs : SamePlace n.name n'.name a.kind a'.kind) (he : a.rustName = a'.rustName) :
    ∃ inner b b' k, WishedName inner n f a.kind b ∧ WishedName inner n' f' a'.kind b' ∧ 0 < k ∧
      (b = b' ++ dec k ∨ b' = b ++ dec k) := by
  obtain ⟨q⟩ := p.fn_stages
  exact ⟨_, same_name_partial q (p.delivered_function h).1 (p.delivered_function h').1 hne hs he⟩

/-- **C74 (and C28)**: the names each generated module defines, exactly: see `names_in_module`. -/
theorem module_names {policy' : UnsafePolicy} {includes : List String} {headerName : Option String} {file : RsFile}
    (hfile : generateRsCode hash policy' cfg includes headerName out.apis = some file) (path : List String) :
    ((file.namesIn path).isSome = true ↔ path = [] ∨ ∃ a ∈ out.apis, path <+: a.name.ns) ∧
    ∀ l, file.namesIn path = some l → ∃ kids, kids.Nodup ∧ (∀ n, n ∈ kids ↔ ∃ a ∈ out.apis, path ++ [n] <+: a.name.ns) ∧
      l = (if path = [] then file.globals.flatMap GlobalDecl.names ++ outermostNames
          else ["cxxbridge", "output", "bindgen"]) ++
        (out.apis.filter fun a => a.name.ns = path).flatMap (exposedNames cfg out.apis) ++ kids := by
  obtain ⟨codes, P⟩ := rs_parts hfile
  exact names_in_module P (fun _ _ _ h => p.named_right h) path

/-- **C74 (partial)**: no generated module defines a name twice, if nothing of Rust is offered to C++ and the names of the
header keep apart as `ModuleApart` says. Without the latter the generated code does not compile: see
`reserved_namespace_false` and `numbered_names_false`. What is missing is the names made up for things of Rust. -/
theorem names_once_partial {policy' : UnsafePolicy} {includes : List String} {headerName : Option String} {file : RsFile}
    (hfile : generateRsCode hash policy' cfg includes headerName out.apis = some file) (hsub : cfg.subclasses = [])
    (hrust : ∀ a ∈ out.apis, ¬ OffersRust a) {path : List String} (hap : ModuleApart cfg out.apis path) {l : List Ident}
    (hl : file.namesIn path = some l) : l.Nodup := by
  obtain ⟨codes, P⟩ := rs_parts hfile
  obtain ⟨kids, hkn, hkids, rfl⟩ := (p.module_names hfile path).2 l hl
  have hinv := p.out_inv.1
  -- What is at the top is the trait for strings, once.
  have hglob : ∃ d, d.Sublist ["ToCppString"] ∧ file.globals.flatMap GlobalDecl.names = d := by
    rw [P.globals]
    have hmk : ∀ n, .stringConstructor n ∈ out.apis → n.name = ⟨[], cfg.makestringName hash⟩ := by
      intro n hn
      rcases p.delivered_directive hn rfl with (⟨-, h⟩ | ⟨_, -, h⟩ | ⟨f, hf, _, -, h⟩ | ⟨q, last, hq, h⟩ | ⟨_, -, h⟩) |
        ⟨pre, nm, req, post, hx, hq, hp, h⟩
      · exact congrArg ApiName.name (Api.stringConstructor.inj h)
      all_goals cases h
    refine ⟨_, ?_, rfl⟩
    have hone : ∀ {e : RsEnv} {a : FnApi} {c : ApiCode}, genApi e a = some c → ¬ OffersRust a →
        c.globals.flatMap GlobalDecl.names = [] ∨
          ∃ n, a = .stringConstructor n ∧ c.globals.flatMap GlobalDecl.names = ["ToCppString"] := by
      intro e a c hg ha
      cases item_code hg with
      | type _ _ hc => cases hc <;> exact .inl rfl
      | makeString n h => exact .inr ⟨n, h, rfl⟩
      | fn | bindgen | ctype | externCpp | nothing => exact .inl rfl
      | failed n err ctx h => cases ctx <;> exact .inl rfl
      | rustType _ _ _ h | rustFn _ _ _ h | subclassFn _ _ _ _ h | subclass _ _ _ h => subst h; exact absurd trivial ha
    have hall : ∀ {apis : List FnApi} {codes : List ApiCode} {e : RsEnv}, All2 (fun a c => genApi e a = some c) apis codes →
        (∀ a ∈ apis, ¬ OffersRust a) → (apis.map Api.name).Nodup →
        (∀ n, .stringConstructor n ∈ apis → n.name = ⟨[], cfg.makestringName hash⟩) →
        ((codes.flatMap (·.globals)).flatMap GlobalDecl.names).Sublist ["ToCppString"] ∧
          ((∀ n, .stringConstructor n ∉ apis) → (codes.flatMap (·.globals)).flatMap GlobalDecl.names = []) := by
      intro apis codes e hall
      induction hall with
      | nil => intro _ _ _; exact ⟨List.nil_sublist _, fun _ => rfl⟩
      | @cons a c l r hac _ ih =>
        intro hr hnd hm
        rw [List.map_cons, List.nodup_cons] at hnd
        have ih := ih (fun a ha => hr a (List.mem_cons_of_mem _ ha)) hnd.2 fun n hn => hm n (List.mem_cons_of_mem _ hn)
        rw [List.flatMap_cons, List.flatMap_append]
        rcases hone hac (hr a List.mem_cons_self) with h0 | ⟨n, rfl, h1⟩
        · rw [h0, List.nil_append]
          exact ⟨ih.1, fun h => ih.2 fun n hn => h n (List.mem_cons_of_mem _ hn)⟩
        · have hno : ∀ n', .stringConstructor n' ∉ l := by
            intro n' hn'
            refine hnd.1 (List.mem_map.2 ⟨_, hn', ?_⟩)
            exact (hm n' (List.mem_cons_of_mem _ hn')).trans (hm n List.mem_cons_self).symm
          rw [h1, ih.2 hno]
          exact ⟨List.Sublist.refl _, fun h => absurd List.mem_cons_self (h n)⟩
    exact (hall P.each hrust hinv hmk).1
  obtain ⟨d, hd, hde⟩ := hglob
  rw [hde]
  -- The names of the items.
  have hitems : ((out.apis.filter fun a => a.name.ns = path).flatMap (exposedNames cfg out.apis)).Nodup := by
    rw [List.nodup_flatMap]
    constructor
    · intro a ha
      exact exposed_nodup hsub (hrust a (List.mem_filter.1 ha).1)
    · have hpw : (out.apis.filter fun a => a.name.ns = path).Pairwise fun a b => a.name ≠ b.name := by
        rw [← List.pairwise_map (f := Api.name) (R := (· ≠ ·))]
        exact hinv.sublist (List.filter_sublist.map _)
      refine hpw.imp_of_mem fun {a b} ha hb hab => ?_
      obtain ⟨ha, hpa⟩ := List.mem_filter.1 ha
      obtain ⟨hb, hpb⟩ := List.mem_filter.1 hb
      have hpa := of_decide_eq_true hpa
      have hpb := of_decide_eq_true hpb
      intro x hxa hxb
      by_cases hff : ∃ n f an n' f' an', a = .function n f an ∧ b = .function n' f' an'
      · obtain ⟨n, f, an, n', f', an', rfl, rfl⟩ := hff
        rw [exposedNames] at hxa hxb
        split at hxa
        · rename_i h1
          split at hxb
          · rename_i h2
            have hname : an.rustName = an'.rustName := (List.mem_singleton.1 hxa).symm.trans (List.mem_singleton.1 hxb)
            have hne : n.name ≠ n'.name := hab
            obtain ⟨inner, b, b', k, ho, ho', hk, hcl⟩ := p.delivered_names_partial ha hb hne
              (by rw [h1.1, h2.1]; exact .free (hpa.trans hpb.symm)) hname
            rw [h1.1] at ho
            rw [h2.1] at ho'
            cases ho with
            | free hi =>
              cases ho' with
              | free hi' =>
                rcases hcl with e | e
                · exact hap.numbered n f an n' f' an' ha hb hpa hpb b b' k hi hi' hk e
                · exact hap.numbered n' f' an' n f an hb ha hpb hpa b' b k hi' hi hk e
          · cases hxb
        · cases hxa
      · by_cases hoa : NamedOtherwise a
        · exact hap.others a ha b hb hpa hpb hab hoa (fun n f an n' f' an' h => hff ⟨n, f, an, n', f', an', h⟩) x hxa hxb
        · by_cases hob : NamedOtherwise b
          · exact hap.others b hb a ha hpb hpa (Ne.symm hab) hob
              (fun n f an n' f' an' h => hff ⟨n', f', an', n, f, an, h.2, h.1⟩) x hxb hxa
          · have e1 := exposed_own hsub hoa (hrust a ha) x hxa
            have e2 := exposed_own hsub hob (hrust b hb) x hxb
            have e3 : a.name.ns = b.name.ns := hpa.trans hpb.symm
            have e4 : a.name.name = b.name.name := e1.symm.trans e2
            revert hab e3 e4
            generalize a.name = qa
            generalize b.name = qb
            intro hab e3 e4
            cases qa
            cases qb
            cases e3
            cases e4
            exact hab rfl
  have hpre : ((if path = [] then d ++ outermostNames else ["cxxbridge", "output", "bindgen"]) : List Ident).Sublist
      (fixedNames path) ∧ (fixedNames path).Nodup := by
    rw [fixedNames]
    split
    · exact ⟨hd.append (List.Sublist.refl outermostNames), by decide⟩
    · exact ⟨List.Sublist.refl _, by decide⟩
  rw [List.nodup_append, List.nodup_append]
  refine ⟨⟨hpre.2.sublist hpre.1, hitems, fun x hx y hy e => ?_⟩, hkn, fun x hx y hy e => ?_⟩
  · subst e
    obtain ⟨a, ha, hxa⟩ := List.mem_flatMap.1 hy
    obtain ⟨ha, hpa⟩ := List.mem_filter.1 ha
    exact (hap.fixed x (hpre.1.subset hx)).1 a ha (of_decide_eq_true hpa) hxa
  · subst e
    obtain ⟨b, hb, hpf⟩ := (hkids x).1 hy
    rcases List.mem_append.1 hx with hx | hx
    · exact (hap.fixed x (hpre.1.subset hx)).2 b hb hpf
    · obtain ⟨a, ha, hxa⟩ := List.mem_flatMap.1 hx
      obtain ⟨ha, hpa⟩ := List.mem_filter.1 ha
      exact hap.kids a ha (of_decide_eq_true hpa) x hxa b hb hpf

end ConvertStages

/-! ## Members -/

/-- The member an item is to be of the `impl` block for a type: a method for which there is a function in Rust, or what
stands for a method which could not be bound. -/
def exposedMember (ty : Ident) : FnApi → Option Ident
  | .function _ _ a =>
    match a.kind with
    | .method _ q =>
      if a.ignoreReason = none ∧ a.externallyCallable = true ∧ a.rustWrapperNeeded = true ∧ q.name = ty then some a.rustName
      else none
    | _ => none
  | .ignoredItem _ _ (some (.method selfTy method)) => if selfTy = ty then some method else none
  | _ => none

/-- The name of a member of an `impl` block. -/
def ImplMember.name : ImplMember → Ident
  | .fn f => f.name
  | .failed m _ => m

/-- The names of the members of an item, if that is an `impl` block for the type. -/
def OutItem.membersFor {ι τ : Type} (ty : Ident) : OutItem ι Ident τ ImplMember → List Ident
  | .impl t ms => if t = ty then ms.map ImplMember.name else []
  | _ => []

/-- The names of the members of the `impl` blocks for a type in the module of a path, as often as they are there. -/
def RsFile.membersOf (f : RsFile) (path : List String) (ty : Ident) : List Ident :=
  ((followMods f.output path).getD []).flatMap (OutItem.membersFor ty)

theorem item_member {e : RsEnv} {a : FnApi} {c : ApiCode} (hg : genApi e a = some c) (ty : Ident) :
    (match c.piece.implEntry with
      | some e => if e.1 = ty then some e.2.name else none
      | none => none) = exposedMember ty a := by
  cases item_code hg with
  | type hi _ hc =>
    have hx : exposedMember ty a = none := by cases hi <;> rfl
    rw [hx]
    cases hc <;> rfl
  | makeString n ha => subst ha; rfl
  | fn n f an r ha hr =>
    subst ha
    rw [exposedMember]
    rcases fn_code hr with ⟨hno, rfl⟩ | ⟨hok, b, -, -, -, hp⟩
    · cases hk : an.kind with
      | method k q =>
        dsimp only
        rw [if_neg]
        · rfl
        · rintro ⟨h1, h2, -⟩
          rw [h1, h2] at hno
          cases hno
      | _ => rfl
    · rw [Bool.or_eq_false_iff] at hok
      have h1 : an.ignoreReason = none := by
        cases h : an.ignoreReason with
        | none => rfl
        | some _ => rw [h] at hok; cases hok.1
      have h2 : an.externallyCallable = true := by simpa using hok.2
      have hcode : r.code.piece.implEntry = r.piece.implEntry.map fun e => (e.1, ImplMember.fn e.2) := rfl
      rw [hcode]
      rw [fnPiece] at hp
      split at hp
      · rename_i hw
        split at hp <;> obtain ⟨x, hx, hpe⟩ := Option.map_eq_some_iff.1 hp <;> rename_i hk <;> rw [hk, ← hpe]
        · rw [FnGen.constructorImpl] at hx
          obtain ⟨parts, -, rfl⟩ := Option.map_eq_some_iff.1 hx
          rename_i q
          dsimp only [Option.map_some]
          by_cases hq : q.name = ty
          · rw [if_pos hq, if_pos ⟨h1, h2, hw, hq⟩]; rfl
          · rw [if_neg hq, if_neg fun h => hq h.2.2.2]
        · rw [FnGen.methodImpl] at hx
          obtain ⟨parts, -, rfl⟩ := Option.map_eq_some_iff.1 hx
          rename_i q _
          dsimp only [Option.map_some]
          by_cases hq : q.name = ty
          · rw [if_pos hq, if_pos ⟨h1, h2, hw, hq⟩]; rfl
          · rw [if_neg hq, if_neg fun h => hq h.2.2.2]
        · rfl
        · rfl
      · rename_i hw
        cases hk : an.kind with
        | method k q =>
          rw [hk] at hp
          rw [← Option.some.inj hp]
          dsimp only [Option.map_none]
          rw [if_neg fun h => hw h.2.2.1]
        | function => rw [hk] at hp; rw [← Option.some.inj hp]; rfl
        | traitMethod => rw [hk] at hp; rw [← Option.some.inj hp]; rfl
  | bindgen ha => rcases ha with ⟨n, i, rfl⟩ | ⟨n, i, o, an, rfl⟩ <;> rfl
  | ctype n q ha => subst ha; rfl
  | rustType n s p ha hp hl => subst ha; rfl
  | rustFn n ds f ha hf hn => subst ha; rfl
  | subclassFn n sub d c ha hc =>
    subst ha
    obtain ⟨_, _, -, -, rfl⟩ := subclassFn_code hc
    rfl
  | subclass n sup c ha hc =>
    subst ha
    obtain ⟨supers, hs, -, -, -, -, him, -, hit⟩ := subclass_code hc
    rw [him]
    rfl
  | externCpp n p o x ha hx hn => subst ha; rfl
  | failed n err ctx ha => subst ha; cases ctx <;> rfl
  | nothing ha => rcases ha with ⟨n, err, rfl⟩ | ⟨n, d, rfl⟩ <;> rfl

theorem one_group {α : Type} {l : List (Ident × List α)} {ty : Ident} {g : List α} (hn : (l.map (·.1)).Nodup)
    (h : ∀ ms, (ty, ms) ∈ l ↔ ms ≠ [] ∧ ms = g) : (l.flatMap fun x => if x.1 = ty then x.2 else []) = g := by
  by_cases hg : g = []
  · rw [hg, List.flatMap_eq_nil_iff]
    rintro ⟨t, ms⟩ hx
    dsimp only
    by_cases ht : t = ty
    · subst ht
      obtain ⟨h1, h2⟩ := (h ms).1 hx
      exact absurd (h2.trans hg) h1
    · rw [if_neg ht]
  · obtain ⟨l1, l2, rfl⟩ := List.append_of_mem ((h g).2 ⟨hg, rfl⟩)
    rw [List.map_append, List.map_cons, List.nodup_append, List.nodup_cons] at hn
    have e1 : (l1.flatMap fun x => if x.1 = ty then x.2 else []) = [] := by
      rw [List.flatMap_eq_nil_iff]
      intro x hx
      rw [if_neg]
      intro e
      exact hn.2.2 _ (List.mem_map.2 ⟨x, hx, rfl⟩) ty (by simp) e
    have e2 : (l2.flatMap fun x => if x.1 = ty then x.2 else []) = [] := by
      rw [List.flatMap_eq_nil_iff]
      intro x hx
      rw [if_neg]
      intro e
      exact hn.2.1.1 (List.mem_map.2 ⟨x, hx, e⟩)
    rw [List.flatMap_append, List.flatMap_cons, e1, e2, if_pos rfl, List.append_nil, List.nil_append]

theorem zip_pieces_members {g : FnApi → Option ApiCode} {x : FnApi → Option Ident} {path : List String} {ty : Ident}
    {l : List FnApi} {r : List ApiCode} (h : All2 (fun a c => g a = some c) l r)
    (hx : ∀ a ∈ l, ∀ c, g a = some c → (match c.piece.implEntry with
      | some e => if e.1 = ty then some e.2.name else none
      | none => none) = x a) :
    (((((l.map Api.name).zip (r.map (·.piece))).filter fun a => a.1.ns = path).map (·.2)).filterMap fun y =>
      match y.implEntry with
      | some e => if e.1 = ty then some e.2 else none
      | none => none).map ImplMember.name = (l.filter fun a => a.name.ns = path).filterMap x := by
  induction h with
  | nil => rfl
  | @cons a c l r hac _ ih =>
    have ih := ih fun a ha => hx a (List.mem_cons_of_mem _ ha)
    rw [List.map_cons, List.map_cons, List.zip_cons_cons, List.filter_cons, List.filter_cons]
    by_cases hp : a.name.ns = path
    · rw [if_pos (by simpa using hp), if_pos (by simpa using hp), List.map_cons, List.filterMap_cons, List.filterMap_cons,
        ← hx a List.mem_cons_self c hac]
      cases he : c.piece.implEntry with
      | none => exact ih
      | some e =>
        dsimp only
        by_cases ht : e.1 = ty
        · rw [if_pos ht, if_pos ht, List.map_cons, ih]
        · rw [if_neg ht, if_neg ht]; exact ih
    · rw [if_neg (by simpa using hp), if_neg (by simpa using hp), ih]

namespace ConvertStages

variable {fuel : Nat} {hash : Config → Nat} {sigOf : RustSig → RustFnSig} {policy : UnsafePolicy} {cfg : Config}
  {force : Bool} {cb : Callbacks} {items : List BindgenItem} {out : FnApiVec}
  (p : ConvertStages fuel hash sigOf policy cfg force cb items out)
include p

/-- **C74**: the members of the `impl` block for a type are, in order, those of its methods there are functions in Rust
for, under their names in Rust, and what stands for those which could not be bound. -/
theorem member_names {policy' : UnsafePolicy} {includes : List String} {headerName : Option String} {file : RsFile}
    (hfile : generateRsCode hash policy' cfg includes headerName out.apis = some file) (path : List String) (ty : Ident) :
    file.membersOf path ty = (out.apis.filter fun a => a.name.ns = path).filterMap (exposedMember ty) := by
  obtain ⟨codes, P⟩ := rs_parts hfile
  obtain ⟨o, ho, hex, hin⟩ := output_modules (l := (out.apis.map Api.name).zip (codes.map (·.piece))) (fuel := nsFuel out.apis)
    (fun a ha => by
      obtain ⟨x, hx, e⟩ := List.mem_map.1 (List.of_mem_zip ha).1
      rw [← e]
      exact mem_nsFuel hx) (Nat.succ_pos _)
  have hout := Option.some.inj (ho.symm.trans P.output)
  subst hout
  rw [← zip_pieces_members (path := path) (ty := ty) P.each fun a _ c hc => item_member hc ty, RsFile.membersOf]
  cases hc : followMods file.output path with
  | none =>
    have hnone : ((out.apis.map Api.name).zip (codes.map (·.piece))).filter (fun a => a.1.ns = path) = [] := by
      rw [List.filter_eq_nil_iff]
      intro a ha
      have := mt (hex path).2 (by rw [hc]; simp)
      intro hp
      exact this (.inr ⟨a, ha, by rw [of_decide_eq_true hp]; exact List.prefix_refl _⟩)
    rw [hnone]
    rfl
  | some c =>
    obtain ⟨direct, mods, hcm, ⟨impls, traits, hd, hni, -, hgi, -⟩, hmods, -⟩ := hin path c hc
    have hgroup := one_group hni (hgi ty)
    refine Eq.trans ?_ (congrArg (List.map ImplMember.name) (hgroup.trans (List.filterMap_congr fun y _ => ?_)))
    swap
    · cases y.implEntry with
      | none => rfl
      | some e => dsimp only
    rw [Option.getD_some, hcm, hd]
    rw [List.flatMap_append, List.flatMap_append, List.flatMap_append, List.flatMap_append]
    have z1 : ∀ {l : List OutDecl}, (l.map (OutItem.item (κ := Ident) (τ := TraitKey) (μ := ImplMember))).flatMap (OutItem.membersFor ty) = [] := by
      intro l
      rw [List.flatMap_eq_nil_iff]
      intro x hx
      obtain ⟨y, -, rfl⟩ := List.mem_map.1 hx
      rfl
    have z2 : (traits.map fun g => (OutItem.traitImpl g.1 g.2 : OutItem OutDecl Ident TraitKey ImplMember)).flatMap (OutItem.membersFor ty) = [] := by
      rw [List.flatMap_eq_nil_iff]
      intro x hx
      obtain ⟨y, -, rfl⟩ := List.mem_map.1 hx
      rfl
    have z3 : mods.flatMap (OutItem.membersFor ty) = [] := by
      rw [List.flatMap_eq_nil_iff]
      intro x hx
      have := hmods x hx
      cases x with
      | mod => rfl
      | item | impl | traitImpl | imports => cases this
    have z4 : ((if path = [] then [] else [OutItem.imports]) : List (OutItem OutDecl Ident TraitKey ImplMember)).flatMap (OutItem.membersFor ty) = [] := by
      split <;> rfl
    rw [z1, z2, z3, z4, List.flatMap_map, List.append_nil, List.append_nil, List.nil_append, List.nil_append,
      List.map_flatMap]
    refine congrArg (impls.flatMap ·) (funext fun x => ?_)
    show (if x.1 = ty then x.2.map ImplMember.name else []) = List.map ImplMember.name (if x.1 = ty then x.2 else [])
    split <;> rfl

/-- **C74 (partial)**: no type has two methods of one name, if what stands for methods which could not be bound is called
like none which was and like no other, and no method is to be called what another is to be called with a number after
it. Without the latter it has: see `numbered_names_false`. -/
theorem members_once_partial {policy' : UnsafePolicy} {includes : List String} {headerName : Option String} {file : RsFile}
    (hfile : generateRsCode hash policy' cfg includes headerName out.apis = some file) (path : List String) (ty : Ident)
    (hmark : ∀ n e m, .ignoredItem n e (some (.method ty m)) ∈ out.apis → n.name.ns = path → ∀ b ∈ out.apis,
      b.name.ns = path → b.name ≠ n.name → exposedMember ty b ≠ some m)
    (hnum : ∀ inner n f an n' f' an' b b' k, .function n f an ∈ out.apis → .function n' f' an' ∈ out.apis →
      WishedName inner n f an.kind b → WishedName inner n' f' an'.kind b' → 0 < k → b ≠ b' ++ dec k) :
    (file.membersOf path ty).Nodup := by
  rw [p.member_names hfile]
  have hinv := p.out_inv.1
  have hpw : (out.apis.filter fun a => a.name.ns = path).Pairwise fun a b => a.name ≠ b.name := by
    rw [← List.pairwise_map (f := Api.name) (R := (· ≠ ·))]
    exact hinv.sublist (List.filter_sublist.map _)
  rw [List.Nodup, List.pairwise_filterMap]
  refine hpw.imp_of_mem fun {a b} ha hb hab => ?_
  obtain ⟨ha, hpa⟩ := List.mem_filter.1 ha
  obtain ⟨hb, hpb⟩ := List.mem_filter.1 hb
  have hpa := of_decide_eq_true hpa
  have hpb := of_decide_eq_true hpb
  intro x hxa y hyb e
  subst e
  have marker : ∀ {a : FnApi}, exposedMember ty a = some x → (∃ n e, a = .ignoredItem n e (some (.method ty x))) ∨
      ∃ n f an k q, a = .function n f an ∧ an.kind = .method k q ∧ q.name = ty ∧ an.rustName = x := by
    intro a h
    cases a with
    | function n f an =>
      rw [exposedMember] at h
      cases hk : an.kind with
      | method k q =>
        rw [hk] at h
        dsimp only at h
        split at h
        · rename_i hc
          exact .inr ⟨n, f, an, k, q, rfl, hk, hc.2.2.2, Option.some.inj h⟩
        · cases h
      | _ => rw [hk] at h; cases h
    | ignoredItem n e c =>
      rcases c with _ | (_ | _ | ⟨s, m⟩)
      · cases h
      · cases h
      · cases h
      · rw [exposedMember] at h
        split at h
        · rename_i hs
          subst hs
          exact .inl ⟨n, e, by rw [Option.some.inj h]⟩
        · cases h
    | _ => cases h
  rcases marker hxa with ⟨n, e, rfl⟩ | ⟨n, f, an, k, q, rfl, hk, hq, hn⟩
  · exact hmark n e x ha hpa b hb hpb (Ne.symm hab) hyb
  · rcases marker hyb with ⟨n', e, rfl⟩ | ⟨n', f', an', k', q', rfl, hk', hq', hn'⟩
    · exact hmark n' e x hb hpb _ ha hpa hab hxa
    · obtain ⟨inner, b, b', k, ho, ho', hkk, hcl⟩ := p.delivered_names_partial ha hb hab
        (by rw [hk, hk']; exact .method (hpa.trans hpb.symm) (hq.trans hq'.symm)) (hn.trans hn'.symm)
      rcases hcl with e | e
      · exact hnum inner n f an n' f' an' b b' k ha hb ho ho' hkk e
      · exact hnum inner n' f' an' n f an b' b k hb ha ho' ho hkk e

end ConvertStages
end Verif
