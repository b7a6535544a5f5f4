import Verif.RsDeclProps
import Verif.PipelineFnProps

/-!
# The generated Rust code of a whole run

What the statements about the generated code assume of the items holds of those every run delivers.
-/

set_option autoImplicit false

namespace Verif

section
variable {fuel : Nat} {hash : Config → Nat} {sigOf : RustSig → RustFnSig} {policy : UnsafePolicy} {cfg : Config}
  {force : Bool} {cb : Callbacks} {items : List BindgenItem} {out : FnApiVec}

/-- The kinds of items which only directives ask for. -/
def Api.fromDirective {T S F : Type} : Api T S F → Bool
  | .subclass .. | .stringConstructor .. | .rustFn .. | .rustType .. | .externCppType .. => true
  | _ => false

omit fuel hash sigOf policy force items out in
theorem item_not_directive {ns : List String} {l : List BindgenItem} {i : BindgenItem} {o : ItemOut} {a : NullApi}
    (h : ItemFate cfg cb ns i o) (hi : ∀ id items, i ≠ .mod id items) (ha : FromItem ns l o a) : a.fromDirective = false := by
  unfold FromItem at ha
  cases h with
  | mod => exact absurd rfl (hi _ _)
  | foreign hf =>
    rcases ha with ha | ha | ha | ⟨f, hfm, rfl⟩
    · cases ha
    · cases ha
    · obtain ⟨id, hid, rfl⟩ := (foreign_found hf).2.2.2 _ ha
      rfl
    · rfl
  | _ =>
    rcases ha with ha | ha | ha | ⟨f, hfm, rfl⟩
    · first | (cases ha; done) | (rw [List.mem_singleton.1 ha]; rfl)
    · first | (cases ha; done) | (rw [List.mem_singleton.1 ha]; rfl)
    · first | (cases ha; done) | (rw [List.mem_singleton.1 ha]; rfl)
    · first | rfl | cases hfm

namespace ConvertStages
variable (p : ConvertStages fuel hash sigOf policy cfg force cb items out)
include p

/-- Items of the kinds only directives ask for come from directives. -/
theorem delivered_directive {b : FnApi} (hb : b ∈ out.apis) (hd : b.fromDirective = true) :
    Configured hash sigOf cfg b.shape ∨ ExternIs cfg b.name b.shape := by
  have hr : b.isIgnored = false := by cases b <;> first | rfl | cases hd
  have hi : b.invented = false := by cases b <;> first | rfl | cases hd
  rcases p.delivered_found hb hr hi with ⟨n, q, rfl⟩ | hg | ⟨a, ha, hs⟩
  · cases hd
  · cases hg <;> cases hd
  · have had : a.fromDirective = true := by
      cases a <;> cases b <;> first | rfl | (cases hs; done) | cases hd
    have has : a.shape = a := by cases a <;> rfl
    obtain ⟨l, ⟨lc, root, outs, -, hroot, -, -⟩, -, -⟩ := (parse_ok_iff ..).1 p.hparse
    rcases parsed_from _ _ _ _ _ root _ p.hparse hroot _ ha with h | ⟨c, h1, h2⟩
    · right
      rw [← hs, has, ← shape_name b, ← hs, has]
      exact h
    · left
      rcases h1 with rfl | rfl
      · rcases h2 with h2 | ⟨ns, l, i, o, -, -, hf, hfr, id, hn, -⟩
        · rw [← hs, has]; exact h2
        · rw [item_not_directive hf (named_not_mod hn) hfr] at had
          cases had
      · cases had

/-- What code is generated for directives from is among them. -/
theorem configured_items_found {b : FnApi} (hb : b ∈ out.apis) (hd : b.fromDirective = true)
    (hs : ∀ n sup, b ≠ .subclass n sup) (e : RsEnv) (he : e.cfg = cfg) : ∃ c, genApi e b = some c := by
  subst he
  have h := p.delivered_directive hb hd
  cases b with
  | subclass n sup => exact absurd rfl (hs n sup)
  | stringConstructor n => exact ⟨_, rfl⟩
  | rustFn n ds =>
    have : ∃ f ∈ e.cfg.externRustFuns, f.sig.ident = n.name.name := by
      rcases h with (⟨-, h⟩ | ⟨_, -, h⟩ | ⟨f, hf, _, -, h⟩ | ⟨_, _, -, h⟩ | ⟨_, -, h⟩) | ⟨_, _, _, _, -, -, -, h⟩
      · cases h
      · cases h
      · cases h; exact ⟨f, hf, rfl⟩
      · cases h
      · cases h
      · cases h
    obtain ⟨f, hf, hn⟩ := this
    rw [genApi]
    cases hx : e.cfg.externRustFuns.find? fun f => f.sig.ident = n.name.name with
    | some g => exact ⟨_, rfl⟩
    | none => exact absurd (by simpa using hn) (List.find?_eq_none.1 hx f hf)
  | rustType n s =>
    have : ∃ q ∈ e.cfg.rustTypes, q.getLast? = some n.name.name := by
      rcases h with (⟨-, h⟩ | ⟨_, -, h⟩ | ⟨f, hf, _, -, h⟩ | ⟨q, last, hq, h⟩ | ⟨_, -, h⟩) | ⟨_, _, _, _, -, -, -, h⟩
      · cases h
      · cases h
      · cases h
      · cases h; exact ⟨_, hq, List.getLast?_concat⟩
      · cases h
      · cases h
    obtain ⟨f, hf, hn⟩ := this
    rw [genApi]
    cases hx : e.cfg.rustTypes.find? fun q => q.getLast? = some n.name.name with
    | some g => exact ⟨_, rfl⟩
    | none => exact absurd (by simpa using hn) (List.find?_eq_none.1 hx f hf)
  | externCppType n pod o =>
    have : ∃ x ∈ e.cfg.externs.reverse, QName.ofCppName x.1 = n.name := by
      rcases h with (⟨-, h⟩ | ⟨_, -, h⟩ | ⟨f, hf, _, -, h⟩ | ⟨q, last, hq, h⟩ | ⟨_, -, h⟩) | ⟨pre, nm, req, post, hx, hq, -, -⟩
      · cases h
      · cases h
      · cases h
      · cases h
      · cases h
      · exact ⟨(nm, req), by rw [hx]; simp, hq⟩
    obtain ⟨f, hf, hn⟩ := this
    rw [genApi]
    cases hx : e.cfg.externs.reverse.find? fun x => QName.ofCppName x.1 = n.name with
    | some g => exact ⟨_, rfl⟩
    | none => exact absurd (by simpa using hn) (List.find?_eq_none.1 hx f hf)
  | _ => cases hd

/-- The directive an external C++ type is bound by is the last one for it. -/
theorem extern_type_last {n : ApiName} {pod o : Bool} (hb : .externCppType n pod o ∈ out.apis) {e : RsEnv} (he : e.cfg = cfg)
    {c : ApiCode} (hc : genApi e (.externCppType n pod o) = some c) : ∃ pre name req post,
      cfg.externs = pre ++ (name, req) :: post ∧ QName.ofCppName name = n.name ∧
      (∀ e ∈ post, QName.ofCppName e.1 ≠ n.name) ∧ o = req.isOpaque ∧
      c.piece.items = [.useAs req.rustPath n.name.name] := by
  subst he
  rcases p.delivered_directive hb rfl with (⟨-, h⟩ | ⟨_, -, h⟩ | ⟨f, hf, _, -, h⟩ | ⟨q, last, hq, h⟩ | ⟨_, -, h⟩) |
    ⟨pre, nm, req, post, hx, hq, hp, h⟩
  · cases h
  · cases h
  · cases h
  · cases h
  · cases h
  · have ho : o = req.isOpaque := (Api.externCppType.inj h).2.2
    change QName.ofCppName nm = n.name at hq
    have hp : ∀ e ∈ post, QName.ofCppName e.1 ≠ n.name := hp
    refine ⟨pre, nm, req, post, hx, hq, hp, ho, ?_⟩
    rw [genApi] at hc
    obtain ⟨x, hf, rfl⟩ := Option.map_eq_some_iff.1 hc
    rw [hx, List.reverse_append, List.reverse_cons, List.append_assoc, List.find?_append] at hf
    have hnone : (post.reverse.find? fun x => decide (QName.ofCppName x.1 = n.name)) = none := by
      rw [List.find?_eq_none]
      intro x hx'
      simpa using hp x (List.mem_reverse.1 hx')
    rw [hnone] at hf
    simp only [List.cons_append, List.nil_append, Option.none_or] at hf
    rw [List.find?_cons_of_pos (by simpa using hq)] at hf
    rw [← Option.some.inj hf]

/-- **C68**: what the statements about the generated code assume holds of the items every run delivers. -/
theorem codegen_items (hc : ∀ n r d, .concreteType n r d ∈ out.apis → n.name.name ≠ "super") :
    CodegenItems hash cfg out.apis := by
  refine ⟨p.out_inv.1, ?_, ?_, ?_, ?_⟩
  · intro n hn
    rcases p.delivered_directive hn rfl with (⟨-, h⟩ | ⟨_, -, h⟩ | ⟨f, hf, _, -, h⟩ | ⟨q, last, hq, h⟩ | ⟨_, -, h⟩) |
      ⟨pre, nm, req, post, hx, hq, hp, h⟩
    · exact congrArg ApiName.name (Api.stringConstructor.inj h)
    · cases h
    · cases h
    · cases h
    · cases h
    · cases h
  · intro n f a hf
    obtain ⟨-, -, -, env, s, s', name, soph, pre, h⟩ := p.delivered_function hf
    rw [(name_kept h).1]
  · intro n sup hn
    rcases p.delivered_directive hn rfl with (⟨-, h⟩ | ⟨sc, -, h⟩ | ⟨f, hf, _, -, h⟩ | ⟨q, last, hq, h⟩ | ⟨_, -, h⟩) |
      ⟨pre, nm, req, post, hx, hq, hp, h⟩
    · cases h
    · rw [(Api.subclass.inj h).1]
    · cases h
    · cases h
    · cases h
    · cases h
  · intro a ha hk hs
    rcases p.delivered_reachable ha with ⟨n, q, rfl⟩ | ⟨z, hz, -, e, hr⟩
    · rcases hk with ⟨_, _, _, _, hk⟩ | ⟨_, _, _, hk⟩ <;> cases hk
    · rcases e with rfl | rfl
      · have hcol := (p.collected_iff a).2 ⟨hz, hr⟩
        have hreal : a.isIgnored = false := by
          rcases hk with ⟨_, _, _, _, hk⟩ | ⟨_, _, _, rfl⟩
          · cases hk <;> rfl
          · rfl
        have hid := p.delivered.idents a hcol hreal a.name.name
        have hbad : ¬ CxxAcceptable a.name.name := by
          rw [hs]
          exact fun h => h.2.1 (by decide)
        rcases hk with ⟨_, _, _, _, hk⟩ | ⟨_, _, _, rfl⟩
        · cases hk with
          | concreteType n r d => exact hc n r d ha hs
          | struct n d a => exact hbad (hid (by simp [emittedIdents, Api.name, Api.nameInfo]))
          | enum n i => exact hbad (hid (by simp [emittedIdents, Api.name, Api.nameInfo]))
          | forwardDeclaration n x => exact hbad (hid (by simp [emittedIdents, Api.name, Api.nameInfo]))
          | opaqueTypedef n x => exact hbad (hid (by simp [emittedIdents, Api.name, Api.nameInfo]))
        · exact hbad (hid (by simp [emittedIdents, Api.name, Api.nameInfo]))
      · rcases hk with ⟨_, _, _, _, hk⟩ | ⟨_, _, _, hk⟩ <;> cases hk

end ConvertStages

/-- **C68**: a run succeeds exactly if it delivers a set of items which both C++ and Rust code can be generated for; the
Rust code is told the name of the header of the C++ code. -/
theorem convertAll_ok_iff (o : CppOptions) (cxxgenHeader inclusions : String) (includes : List String) (f : RsFile)
    (r : Option CppFilePair) :
    convertAll fuel hash sigOf policy cfg force cb (some items) o cxxgenHeader inclusions includes = .done (.ok (f, r)) ↔
      ∃ out, Nonempty (ConvertStages fuel hash sigOf policy cfg force cb items out) ∧
        generateCppCode o hash cfg cxxgenHeader inclusions out.apis = .ok r ∧
        generateRsCode hash policy cfg includes (r.map (·.headerName)) out.apis = some f := by
  unfold convertAll convertToCpp
  simp only [andThen_ok]
  constructor
  · rintro ⟨⟨out, r'⟩, ⟨apis, h1, h2⟩, h3⟩
    split at h2
    · cases h2
    · cases h2
    · rename_i hg
      cases h2
      split at h3
      · cases h3
      · rename_i hr
        cases h3
        exact ⟨out, (convert_ok_iff ..).1 h1, hg, hr⟩
  · rintro ⟨out, h1, h2, h3⟩
    refine ⟨(out, r), ⟨out, (convert_ok_iff ..).2 h1, by rw [h2]⟩, ?_⟩
    dsimp only
    rw [h3]

/-- **C68**: generating the Rust code fails for two reasons only: an item no code can be made for, and C++ code being needed
which is in no header. -/
theorem rs_code_panics_iff {includes : List String} {headerName : Option String} {apis : List FnApi} :
    generateRsCode hash policy cfg includes headerName apis = none ↔
      (∃ a ∈ apis, genApi (RsEnv.ofApis hash policy cfg apis) a = none) ∨
      (∃ a ∈ apis, NeedsCpp a) ∧ headerName = none := by
  have hany : apis.any FnApi.needsCppCodegen = true ↔ ∃ a ∈ apis, NeedsCpp a := by
    rw [List.any_eq_true]
    exact exists_congr fun a => and_congr_right fun _ => needs_iff a
  rw [generateRsCode]
  cases hm : apis.mapM (genApi (RsEnv.ofApis hash policy cfg apis)) with
  | none =>
    refine iff_of_true rfl (.inl ?_)
    by_contra hc
    push Not at hc
    have : ∃ codes, All2 (fun a c => genApi (RsEnv.ofApis hash policy cfg apis) a = some c) apis codes := by
      clear hm hany
      generalize RsEnv.ofApis hash policy cfg apis = e at hc ⊢
      induction apis with
      | nil => exact ⟨[], .nil⟩
      | cons a l ih =>
        obtain ⟨r, hr⟩ := ih fun x hx => hc x (List.mem_cons_of_mem _ hx)
        obtain ⟨c, hx⟩ := Option.ne_none_iff_exists'.1 (hc a List.mem_cons_self)
        exact ⟨c :: r, .cons hx hr⟩
    obtain ⟨codes, hcodes⟩ := this
    rw [all2_mapM hcodes] at hm
    cases hm
  | some codes =>
    have hz : ∀ x ∈ (apis.map Api.name).zip (codes.map (·.piece)), x.1.ns.length < nsFuel apis := by
      intro x hx
      obtain ⟨a, ha, e⟩ := List.mem_map.1 (List.of_mem_zip (a := x.1) (b := x.2) hx).1
      rw [← e]
      exact mem_nsFuel ha
    obtain ⟨out, ho, -⟩ := output_modules hz (Nat.succ_pos _)
    have hno : ¬ ∃ a ∈ apis, genApi (RsEnv.ofApis hash policy cfg apis) a = none := by
      rintro ⟨a, ha, hn⟩
      obtain ⟨c, -, hx⟩ := (mapM_all2 hm).left ha
      rw [hn] at hx
      cases hx
    rw [← hany]
    simp only [Option.bind_some, ho, Option.map_eq_none_iff, includeItems, hno, false_or]
    by_cases hn : apis.any FnApi.needsCppCodegen = true
    · simp [hn]
    · simp [hn]

/-- **C68**: the header is missing exactly if overrides of virtual methods are all that C++ code is needed for: nothing is
generated for an override without its subclass. -/
theorem header_missing_iff {o : CppOptions} {cxxgenHeader inclusions : String} {apis : List FnApi} {r : Option CppFilePair}
    (hn : ((subclassesIn apis).map (·.1)).Nodup)
    (h : generateCppCode o hash cfg cxxgenHeader inclusions apis = .ok r) :
    ((∃ a ∈ apis, NeedsCpp a) ∧ r.map (·.headerName) = none) ↔
      (∃ n sub d, .rustSubclassFn n sub d ∈ apis) ∧ ∀ a ∈ apis, NeedsCpp a → ∃ n sub d, a = .rustSubclassFn n sub d := by
  rw [Option.map_eq_none_iff, no_files_iff hn h]
  constructor
  · rintro ⟨⟨a, ha, hx⟩, hall⟩
    obtain ⟨n, sub, d, rfl⟩ := hall a ha hx
    exact ⟨⟨n, sub, d, ha⟩, hall⟩
  · rintro ⟨⟨n, sub, d, ha⟩, hall⟩
    exact ⟨⟨_, ha, .override⟩, hall⟩

/-- **C68 (partial)**: an override of a virtual method which C++ may call takes the holder of its subclass. If the subclass
is delivered too then this is a type of the bridge. What is missing is that it always is: see
`override_without_holder_false`. -/
theorem override_holder_partial {includes : List String} {headerName : Option String} {apis : List FnApi} {f : RsFile}
    (h : generateRsCode hash policy cfg includes headerName apis = some f) {n sub : ApiName} {d : RustSubclassFnDetails}
    (ha : .rustSubclassFn n sub d ∈ apis) :
    (∃ params ret, .subclassFn d.requiresUnsafe.wrapperToken n.name.name params ret ∈ f.externRust ∧
      All2 (fun a b => a.unqualify = some b) d.params params) ∧
    ∀ sup, .subclass sub sup ∈ apis → .holder sub.holder ∈ f.externRust := by
  obtain ⟨codes, P⟩ := rs_parts h
  constructor
  · obtain ⟨c, -, hc⟩ := P.each.left ha
    have hc' := hc
    rw [genApi, genSubclassFn] at hc'
    obtain ⟨params, hp, hc'⟩ := Option.bind_eq_some_iff.1 hc'
    obtain ⟨ret, hr, hc'⟩ := Option.map_eq_some_iff.1 hc'
    refine ⟨params, ret, (P.mem_externRust _).2 ⟨_, ha, c, hc, ?_⟩, mapM_all2 hp⟩
    rw [← hc']
    exact List.mem_cons_self
  · intro sup hs
    obtain ⟨c, -, hc⟩ := P.each.left hs
    have hc' := hc
    rw [genApi, genSubclass] at hc'
    obtain ⟨_, -, hc'⟩ := Option.map_eq_some_iff.1 hc'
    refine (P.mem_externRust _).2 ⟨_, hs, c, hc, ?_⟩
    rw [← hc']
    exact List.mem_cons_self

end

end Verif
