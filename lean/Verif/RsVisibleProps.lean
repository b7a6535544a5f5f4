import Verif.ExternTypeProps

/-!
# Every usable function is in the generated Rust under its promised name

Whatever strategy was chosen for renaming (engine/src/conversion/codegen_rs/fun_codegen.rs:88-221), a function which the
conversion delivers is found in the module of its namespace, under the name the analysis chose for Rust.
-/

set_option autoImplicit false

namespace Verif

/-- The block which implements a trait for a type, in the module of a path, has a member. -/
def RsFile.HasTraitMember (f : RsFile) (p : List String) (key : TraitKey) (m : ImplMember) : Prop :=
  ∃ c ms, followMods f.output p = some c ∧ .traitImpl key ms ∈ c ∧ m ∈ ms

namespace RsParts

variable {hash : Config → Nat} {policy : UnsafePolicy} {cfg : Config} {includes : List String} {headerName : Option String}
  {apis : List FnApi} {f : RsFile} {codes : List ApiCode} (P : RsParts hash policy cfg includes headerName apis f codes)

include P

theorem trait_member_iff (p : List String) (key : TraitKey) (m : ImplMember) :
    f.HasTraitMember p key m ↔
      ∃ a ∈ apis, a.name.ns = p ∧ ∃ c, genApi P.env a = some c ∧ c.piece.traitImplEntry = some (key, m) := by
  obtain ⟨out, ho, hex, hin⟩ := output_modules (l := (apis.map Api.name).zip (codes.map (·.piece))) (fuel := nsFuel apis)
    (fun a ha => by
      obtain ⟨x, hx, e⟩ := List.mem_map.1 (List.of_mem_zip ha).1
      rw [← e]
      exact mem_nsFuel hx) (Nat.succ_pos _)
  have hout := Option.some.inj (ho.symm.trans P.output)
  subst hout
  constructor
  · rintro ⟨c, ms, hc, hi, hm⟩
    obtain ⟨direct, mods, rfl, ⟨impls, traits, rfl, -, -, -, hg⟩, hmods, -⟩ := hin p c hc
    have : (key, ms) ∈ traits := by
      simp only [List.mem_append, List.mem_map] at hi
      rcases hi with (hi | ((⟨x, hx, e⟩ | ⟨x, hx, e⟩) | ⟨x, hx, e⟩)) | hi
      · split at hi
        · cases hi
        · rw [List.mem_singleton] at hi; cases hi
      · cases e
      · cases e
      · obtain ⟨rfl, rfl⟩ := OutItem.traitImpl.inj e; exact hx
      · cases hmods _ hi
    obtain ⟨-, rfl⟩ := (hg key ms).1 this
    obtain ⟨x, hx, hmx⟩ := List.mem_filterMap.1 hm
    obtain ⟨a, ha, hp, c, hc, rfl⟩ := (mem_zip_pieces P.each).1 hx
    refine ⟨a, ha, hp, c, hc, ?_⟩
    cases he : c.piece.traitImplEntry with
    | none => rw [he] at hmx; cases hmx
    | some e =>
      rw [he] at hmx
      dsimp only at hmx
      split at hmx
      · rename_i ht
        rw [← Option.some.inj hmx, ← ht]
      · cases hmx
  · rintro ⟨a, ha, hp, c, hc, hi⟩
    have hzip := (mem_zip_pieces P.each).2 ⟨a, ha, hp, c, hc, rfl⟩
    obtain ⟨y, hy, -⟩ := List.mem_map.1 hzip
    obtain ⟨hy1, hy2⟩ := List.mem_filter.1 hy
    have hs := (hex p).2 (.inr ⟨y, hy1, by rw [of_decide_eq_true hy2]; exact List.prefix_refl _⟩)
    obtain ⟨c', hc'⟩ := Option.isSome_iff_exists.1 hs
    obtain ⟨direct, mods, rfl, ⟨impls, traits, rfl, -, -, -, hg⟩, -, -⟩ := hin p c' hc'
    obtain ⟨ms, this, hmem⟩ : ∃ ms, (key, ms) ∈ traits ∧ m ∈ ms := by
      refine ⟨_, (hg key _).2 ⟨List.ne_nil_of_mem (a := m) ?_, rfl⟩, ?_⟩ <;>
      · refine List.mem_filterMap.2 ⟨_, hzip, ?_⟩
        rw [hi]
        exact if_pos rfl
    refine ⟨_, ms, hc', ?_, hmem⟩
    refine List.mem_append_left _ (List.mem_append_right _ (List.mem_append_right _ ?_))
    exact List.mem_map.2 ⟨_, this, rfl⟩

end RsParts

/-- How a function is found by users of the generated code: in a module, by name.

* A free function is a function of that name in the module of its namespace, or the bridge's function of the same
  namespace brought there under that name.
* A method is a member of that name in the `impl` block of its class, or the bridge itself has a function of that name.
* A method of a trait is a member, under the name the trait has for it, of the block which implements the trait. -/
inductive VisibleAs (file : RsFile) (n : QName) (rustName : String) : FnKind → Prop
  | written {g : RsFnItem} (hn : g.name = rustName) (h : file.Has n.ns (.fn g)) : VisibleAs file n rustName .function
  | brought {b : BridgeFn} {al : Option Ident} (hb : .fn b ∈ file.externC) (hn : b.name = n.name)
      (hal : al.getD n.name = rustName) (h : file.Has n.ns (.useBridge (cxxUsePath n) al)) :
      VisibleAs file n rustName .function
  | member {k : MethodKind} {ty : QName} {g : RsFnItem} (hn : g.name = rustName)
      (h : file.HasMember n.ns ty.name (.fn g)) : VisibleAs file n rustName (.method k ty)
  | inBridge {k : MethodKind} {ty : QName} {b : BridgeFn} (hn : b.name = rustName) (h : .fn b ∈ file.externC) :
      VisibleAs file n rustName (.method k ty)
  | ofTrait {k : TraitMethodKind} {ty : QName} {d : TraitMethodDetails} {g : RsFnItem} (hn : g.name = d.methodName)
      (h : file.HasTraitMember n.ns ⟨d.implTy, d.traitSignature, d.traitUnsafe⟩ (.fn g)) :
      VisibleAs file n rustName (.traitMethod k ty d)

/-- If no wrapper is made in Rust, then a method has its own name in the bridge, and it is not that of a trait. -/
theorem plain_method {env : FnEnv} {s s' : FnState} {name n : ApiName} {f : FuncToConvert} {soph : Sophistication}
    {pre : Option String} {a : FnAnalysis} (h : analyzeForeignFn env s name f soph pre = .done (s', a, n))
    (hw : a.rustWrapperNeeded = false) :
    (∀ k ty, a.kind = .method k ty → a.cxxbridgeName = a.rustName) ∧ ∀ k ty d, a.kind ≠ .traitMethod k ty d := by
  obtain ⟨t⟩ := analyze_steps h
  obtain ⟨w, final, _, _, _, _, _, _, ha⟩ := finish_inv t.hfin
  rw [ha] at hw ⊢
  simp only at hw ⊢
  have hr' := mt rustWrapperNeeded_iff.2 (ne_true_of_eq_false hw)
  constructor
  · intro k q hk
    by_contra hn
    exact hr' (.inr (.inr (.inr (.inl ⟨hn, k, q, hk⟩))))
  · intro k q d hk
    exact hr' (.inr (.inr (.inl ⟨k, q, d, hk⟩)))

namespace ConvertStages

variable {fuel : Nat} {hash : Config → Nat} {sigOf : RustSig → RustFnSig} {policy : UnsafePolicy} {cfg : Config}
  {force : Bool} {cb : Callbacks} {items : List BindgenItem} {out : FnApiVec}
  (p : ConvertStages fuel hash sigOf policy cfg force cb items out)
include p

/-- **C65 (every function is there under its name)**: a function which is delivered, and which callers outside may call,
is in the generated Rust, in the module of its namespace, under the name which the analysis chose. -/
theorem function_visible {policy' : UnsafePolicy} {includes : List String} {headerName : Option String} {file : RsFile}
    (hfile : generateRsCode hash policy' cfg includes headerName out.apis = some file) {n : ApiName} {f : FuncToConvert}
    {a : FnAnalysis} (h : .function n f a ∈ out.apis) (hc : a.externallyCallable = true) :
    VisibleAs file n.name a.rustName a.kind := by
  obtain ⟨-, hig, -, env, s, s', name, soph, pre, hrun⟩ := p.delivered_function h
  obtain ⟨codes, P⟩ := rs_parts hfile
  obtain ⟨c, -, hgen⟩ := P.each.left h
  have hgen' := hgen
  rw [genApi] at hgen
  obtain ⟨r, hr, rfl⟩ := Option.map_eq_some_iff.1 hgen
  rcases fn_code hr with ⟨hno, -⟩ | ⟨-, b, hb, hex, hbn, hp⟩
  · rw [hig, hc] at hno; cases hno
  have hname : n.name.name = a.cxxbridgeName := by
    obtain ⟨t⟩ := analyze_steps hrun
    obtain ⟨w, final, _, _, _, _, _, hn, ha⟩ := finish_inv t.hfin
    exact (congrArg (·.name.name) hn).trans (congrArg (·.cxxbridgeName) ha).symm
  have hbridge : .fn b ∈ file.externC := by
    refine (P.mem_externC _).2 (.inl ⟨_, h, _, hgen', ?_⟩)
    rw [FnResult.code, hex]
    exact .head _
  have hvis := visible_name hrun
  have item {i : FnOutItem} (hi : r.piece.items = [i]) : file.Has n.name.ns i.toDecl :=
    (P.has_iff _ _).2 ⟨_, h, rfl, _, hgen', by rw [FnResult.code, hi]; exact .head _⟩
  have mem {e : Ident × RsFnItem} (he : r.piece.implEntry = some e) : file.HasMember n.name.ns e.1 (.fn e.2) :=
    (P.member_iff _ _ _).2 ⟨_, h, rfl, _, hgen', by rw [FnResult.code, he]; rfl⟩
  have tmem {e : TraitKey × RsFnItem} (he : r.piece.traitImplEntry = some e) :
      file.HasTraitMember n.name.ns e.1 (.fn e.2) :=
    (P.trait_member_iff _ _ _).2 ⟨_, h, rfl, _, hgen', by rw [FnResult.code, he]; rfl⟩
  rw [fnPiece] at hp
  split at hp
  · split at hp <;> obtain ⟨x, hx, hpe⟩ := Option.map_eq_some_iff.1 hp
    · rename_i hk
      rw [FnGen.constructorImpl] at hx
      obtain ⟨parts, -, rfl⟩ := Option.map_eq_some_iff.1 hx
      rw [hk]
      exact .member rfl (mem (e := (_, _)) (by rw [← hpe]))
    · rename_i hk
      rw [FnGen.methodImpl] at hx
      obtain ⟨parts, -, rfl⟩ := Option.map_eq_some_iff.1 hx
      rw [hk]
      exact .member rfl (mem (e := (_, _)) (by rw [← hpe]))
    · rename_i hk
      rw [FnGen.traitImpl] at hx
      obtain ⟨parts, -, rfl⟩ := Option.map_eq_some_iff.1 hx
      rw [hk]
      exact .ofTrait rfl (tmem (e := (_, _)) (by rw [← hpe]))
    · rename_i hk
      rw [FnGen.functionImpl] at hx
      obtain ⟨parts, -, rfl⟩ := Option.map_eq_some_iff.1 hx
      rw [hk]
      exact .written rfl (item (i := .fn _) (by rw [← hpe]))
  · rename_i hw
    rcases hvis with ⟨hv, -⟩ | ⟨-, hw'⟩
    swap
    · exact absurd hw' hw
    rw [FnAnalysis.visibleName] at hv
    cases hk : a.kind with
    | function =>
      rw [hk] at hp
      refine .brought hbridge (hbn.trans hname.symm) ?_ (item (i := .useBridge _ _) (by rw [← Option.some.inj hp]))
      cases hs : a.renameStrategy with
      | none => rw [hs] at hv; rw [← Option.some.inj hv, hname]; rfl
      | renameInOutputMod m => rw [hs] at hv; exact Option.some.inj hv
      | renameUsingWrapperFunction => rw [hs] at hv; cases hv
    | method k ty =>
      exact .inBridge (hbn.trans ((plain_method hrun (by simpa using hw)).1 k ty hk)) hbridge
    | traitMethod k ty d => exact absurd hk ((plain_method hrun (by simpa using hw)).2 k ty d)

end ConvertStages
end Verif
