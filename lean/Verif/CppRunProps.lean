import Verif.RsTotalProps
import Verif.TightProps

/-!
# C71: the C++ generator, and the whole conversion

What the analyses deliver is generated C++ and Rust code for. The C++ generator panics where a conversion cannot be turned
round, where an item asks for C++ code it has none of, and where an object is built in no place; and the Rust generator
panics if C++ code is needed and there is no header with any. Here it is shown that for well-named items only two things
are left: overriding a virtual method which takes an owner, and overrides being all that C++ is needed for.
-/

set_option autoImplicit false

namespace Verif

/-- Some method a Rust subclass overrides takes an owner. -/
def OverridesOwner (apis : List FnApi) : Prop :=
  ∃ n sub d sup, .rustSubclassFn n sub d ∈ apis ∧ .subclass sub sup ∈ apis ∧
    ∃ c ∈ d.cppImpl.argumentConversion, c.cppConversion = .move

/-- What is collected while the items are gone through. -/
structure NeedsOk (apis : List FnApi) (s : NeedsState) : Prop where
  ctors : ∀ k l, AMap.get? s.ctors k = some l → ∀ c ∈ l, ImplSafe c
  methods : ∀ k l, AMap.get? s.methods k = some l → ∀ f ∈ l, OverrideSafe f.func ∧
    ∃ n d, .rustSubclassFn n k d ∈ apis ∧ f.func = d.cppImpl
  deferred : ∀ q ∈ s.deferred, .subclass q.1 q.2 ∈ apis

theorem pushUnder_all {β : Type} {P : ApiName → β → Prop} {m : AMap ApiName (List β)} {k : ApiName} {v : β}
    (h : ∀ q l, AMap.get? m q = some l → ∀ x ∈ l, P q x) (hv : P k v) :
    ∀ q l, AMap.get? (pushUnder m k v) q = some l → ∀ x ∈ l, P q x := by
  intro q l hl x hx
  rw [pushUnder, AMap.get?_insert] at hl
  split at hl
  · rename_i e
    cases e
    cases hl
    rcases List.mem_append.1 hx with hx | hx
    · cases hm : AMap.get? m k with
      | none => rw [hm] at hx; cases hx
      | some l => rw [hm] at hx; exact h k l hm x hx
    · rw [List.mem_singleton.1 hx]; exact hv
  · exact h q l hl x hx

theorem NeedsOk.add {apis : List FnApi} {s : NeedsState} (h : NeedsOk apis s) (l : List ExtraCpp) :
    NeedsOk apis { s with made := l } := ⟨h.ctors, h.methods, h.deferred⟩

theorem needsStep_np {m : CppNameMap} (hm : GoodMap m) {ms : String} {apis : List FnApi} (hok : ∀ x ∈ apis, OutOk x)
    {s : NeedsState} (hs : NeedsOk apis s) {a : FnApi} (ha : a ∈ apis) (hn : NeedsCpp a) :
    needsStep m ms s a ≠ .panic ∧ ∀ s', needsStep m ms s a = .ok s' → NeedsOk apis s' := by
  have hk := (hok a ha).2
  cases hn with
  | string => exact ⟨(fun h => by cases h), (fun s' h => by cases h; exact hs.add _)⟩
  | @function n f an w hw hx hc =>
    unfold needsStep
    dsimp only
    rw [hw, hx, hc]
    dsimp only
    obtain ⟨h1, h2⟩ := hk.1.wrapper hx w hw
    have hst : NeedsOk apis (match f.provenance with
        | .synthesizedSubclassConstructor sub _ impl => { s with ctors := pushUnder s.ctors sub impl }
        | _ => s) := by
      split
      · rename_i sub tr impl hp
        exact ⟨pushUnder_all (P := fun _ c => ImplSafe c) hs.ctors (hk.1.peer _ _ _ hp), hs.methods, hs.deferred⟩
      · exact hs
    refine ⟨np_bind (wrapper_np hm h1 h2) (fun _ _ h => by cases h), fun s' h => ?_⟩
    obtain ⟨e, -, h⟩ := Outcome.bind_ok h
    cases h
    exact hst.add _
  | @instantiation n t cpp =>
    unfold needsStep
    refine ⟨np_bind ?_ (fun _ _ h => by cases h), fun s' h => ?_⟩
    · cases t with
      | none => exact fun h => by cases h
      | some t => exact (typeToCpp_good hm (hk t rfl)).1
    · obtain ⟨e, -, h⟩ := Outcome.bind_ok h
      cases h
      exact hs.add _
  | ctype => exact ⟨(fun h => by cases h), (fun s' h => by cases h; exact hs.add _)⟩
  | @subclass n sup =>
    refine ⟨(fun h => by cases h), fun s' h => ?_⟩
    cases h
    refine ⟨hs.ctors, hs.methods, fun q hq => ?_⟩
    rcases List.mem_append.1 hq with hq | hq
    · exact hs.deferred q hq
    · rw [List.mem_singleton.1 hq]; exact ha
  | @override n sub d =>
    refine ⟨(fun h => by cases h), fun s' h => ?_⟩
    cases h
    refine ⟨hs.ctors, ?_, hs.deferred⟩
    exact pushUnder_all (v := ⟨d.cppImpl, d.isPureVirtual⟩)
      (P := fun k (f : SubclassFunction) => OverrideSafe f.func ∧ ∃ n d, .rustSubclassFn n k d ∈ apis ∧ f.func = d.cppImpl)
      hs.methods ⟨hk.2, n, d, ha, rfl⟩
  | pod h =>
    unfold needsStep
    rw [if_pos h]
    exact ⟨(fun h => by cases h), (fun s' h => by cases h; exact hs.add _)⟩

theorem subclassMethod_np {m : CppNameMap} (hm : GoodMap m) {sup : QName} {f : SubclassFunction} (h : OverrideSafe f.func)
    (hmove : ∀ c ∈ f.func.argumentConversion, c.cppConversion ≠ .move) : subclassMethodCpp m sup f ≠ .panic := by
  obtain ⟨h1, h2, h3, h4⟩ := h
  rw [subclassMethodCpp]
  refine np_bind (cppCallsRust_np hm h1.args h1.ret (fun c hc => (h2 c hc).resolve_left (hmove c hc)) h3 h4) fun e _ => ?_
  split
  · exact fun h => by cases h
  · refine np_bind (cppCallsCpp_np hm (d := superMethod sup f.func) h1.args h1.ret ?_) fun _ _ h => by cases h
    exact fun ns id h => by cases h

theorem subclassConstructor_np {m : CppNameMap} (hm : GoodMap m) {c : CppFunction} (h : ImplSafe c) :
    subclassConstructorCpp m c ≠ .panic := by
  obtain ⟨h1, h2, h3⟩ := h
  rw [subclassConstructorCpp]
  refine np_bind (cppCallsCpp_np hm h1 ?_ h3) fun _ _ h => by cases h
  intro c hc
  rw [h2] at hc
  cases hc

theorem deferredStep_np {m : CppNameMap} (hm : GoodMap m) {apis : List FnApi} (hown : ¬ OverridesOwner apis)
    {s : NeedsState} (hs : NeedsOk apis s) {q : ApiName × QName} (hq : .subclass q.1 q.2 ∈ apis) :
    deferredStep m s q ≠ .panic ∧ ∀ s', deferredStep m s q = .ok s' → NeedsOk apis s' := by
  rw [deferredStep]
  refine ⟨np_bind ?_ (fun _ _ h => by cases h), fun s' h => ?_⟩
  · rw [generateSubclass]
    refine np_bind (np_map fun f hf => ?_) fun _ _ => np_bind (np_map fun c hc => ?_) fun _ _ h => by cases h
    · cases hg : AMap.get? s.methods q.1 with
      | none => rw [hg] at hf; cases hf
      | some l =>
        rw [hg] at hf
        obtain ⟨h1, n, d, hd, e⟩ := hs.methods _ l hg f hf
        refine subclassMethod_np hm h1 fun c hc hcv => hown ⟨n, q.1, d, q.2, hd, hq, c, ?_, hcv⟩
        rw [← e]; exact hc
    · cases hg : AMap.get? s.ctors q.1 with
      | none => rw [hg] at hc; cases hc
      | some l => rw [hg] at hc; exact subclassConstructor_np hm (hs.ctors _ l hg c hc)
  · obtain ⟨l, -, h⟩ := Outcome.bind_ok h
    cases h
    refine ⟨fun k l hl => ?_, fun k l hl => ?_, hs.deferred⟩
    · rw [AMap.get?_erase] at hl
      split at hl
      · cases hl
      · exact hs.ctors k l hl
    · rw [AMap.get?_erase] at hl
      split at hl
      · cases hl
      · exact hs.methods k l hl

/-- **C71 (C++)**: C++ code can be made for what the analyses deliver unless a method a Rust subclass overrides takes an
owner. -/
theorem generateCppCode_np {o : CppOptions} {hash : Config → Nat} {cfg : Config} {cxxgenHeader inclusions : String}
    {apis : List FnApi} (hok : ∀ x ∈ apis, OutOk x) (hown : ¬ OverridesOwner apis) :
    generateCppCode o hash cfg cxxgenHeader inclusions apis ≠ .panic := by
  have hm : GoodMap (CppNameMap.ofApis apis) := map_good fun x hx => (hok x hx).1
  rw [generateCppCode]
  refine np_bind ?_ fun _ _ h => by cases h
  rw [addNeeds]
  have h1 := np_fold (P := NeedsOk apis) (f := needsStep (CppNameMap.ofApis apis) (cfg.makestringName hash))
    (apis.filter fun a => a.needsCppCodegen) (b := {})
    ⟨(fun k l h => by cases h), (fun k l h => by cases h), (fun q h => by cases h)⟩ fun s hs a ha => by
      obtain ⟨ha, hn⟩ := List.mem_filter.1 ha
      exact needsStep_np hm hok hs ha ((needs_iff a).1 hn)
  refine np_bind h1.1 fun s hs => np_bind ?_ fun _ _ h => by cases h
  have hs := h1.2 s hs
  exact (np_fold (P := NeedsOk apis) s.deferred hs fun s' hs' q hq => deferredStep_np hm hown hs' (hs.deferred q hq)).1

/-! ### The whole conversion -/

/-- No two subclasses have the same name. -/
theorem subclasses_nodup {apis : List FnApi} (h : (apis.map (·.name)).Nodup) : ((subclassesIn apis).map (·.1)).Nodup := by
  induction apis with
  | nil => exact List.nodup_nil
  | cons a l ih =>
    obtain ⟨hna, hl⟩ := List.nodup_cons.1 h
    cases a with
    | subclass n sup =>
      rw [subclassesIn, List.filterMap_cons]
      refine List.nodup_cons.2 ⟨fun hm => hna ?_, ih hl⟩
      obtain ⟨⟨n', sup'⟩, hq, e⟩ := List.mem_map.1 hm
      obtain ⟨b, hb, e'⟩ := List.mem_filterMap.1 hq
      refine List.mem_map.2 ⟨b, hb, ?_⟩
      cases b <;> cases e'
      rw [show n' = n from e]
      rfl
    | _ => exact ih hl


/-- **C71**: once the items are parsed and well-named, and no class holds itself, autocxx crashes only if a method a Rust
subclass overrides takes an owner, or if overrides of virtual methods are all that C++ code is needed for. -/
theorem convertAll_panics {fuel : Nat} {hash : Config → Nat} {sigOf : RustSig → RustFnSig} {policy : UnsafePolicy}
    {cfg : Config} {force : Bool} {cb : Callbacks} {items : List BindgenItem} {o : CppOptions}
    {cxxgenHeader inclusions : String} {includes : List String}
    (hparse : parseBindgenItems hash sigOf cfg cb items ≠ none)
    (hfound : ∀ apis, parseBindgenItems hash sigOf cfg cb items = some (.ok apis) → FoundItems hash cfg apis.apis)
    (hself : ∀ apis tds v, parseBindgenItems hash sigOf cfg cb items = some (.ok apis) →
      convertTypedefTargets fuel cfg cb.attrs apis = .done tds →
      analyzePodApis fuel hash cfg cb.attrs tds = .done (.ok v) → NoSelfHolding v.apis)
    (h : convertAll fuel hash sigOf policy cfg force cb (some items) o cxxgenHeader inclusions includes = .panic) :
    ∃ out, convertApisFrom fuel hash sigOf policy cfg force cb (some items) = .done (.ok out) ∧
      (OverridesOwner out.apis ∨
        ((∃ n sub d, .rustSubclassFn n sub d ∈ out.apis) ∧
          ∀ a ∈ out.apis, NeedsCpp a → ∃ n sub d, a = .rustSubclassFn n sub d)) := by
  have hsafe := convert_safe (policy := policy) (force := force) hparse hfound hself
  rw [convertAll, convertToCpp] at h
  cases hc : convertApisFrom fuel hash sigOf policy cfg force cb (some items) with
  | panic => exact absurd hc hsafe
  | diverges => rw [hc] at h; cases h
  | done r =>
    cases r with
    | error e => rw [hc] at h; cases h
    | ok out =>
      refine ⟨out, rfl, ?_⟩
      obtain ⟨p⟩ := (convert_ok_iff _ _ _ _ _ _ _ _ _).1 hc
      have hf := hfound _ p.hparse
      have hs := hself _ _ _ p.hparse p.htypedefs p.hpods
      rw [hc] at h
      by_cases hown : OverridesOwner out.apis
      · exact .inl hown
      have hcpp := generateCppCode_np (o := o) (hash := hash) (cfg := cfg) (cxxgenHeader := cxxgenHeader)
        (inclusions := inclusions) (p.delivered_ok hf hs) hown
      simp only [PassRun.andThen, PassRun.bind] at h
      cases hg : generateCppCode o hash cfg cxxgenHeader inclusions out.apis with
      | panic => exact absurd hg hcpp
      | err e => rw [hg] at h; cases h
      | ok r =>
        rw [hg] at h
        dsimp only at h
        split at h
        · rename_i hn
          exact .inr ((header_missing_iff (subclasses_nodup p.out_inv.1) hg).1 ((p.rust_code_panics_iff hf hs).1 hn))
        · cases h

/-! ### Without Rust subclasses -/

/-- The subclasses of a class are among the items. -/
theorem bySuperclass_mem {apis : List PodApi} {sup : QName} {l : List ApiName}
    (h : AMap.get? (subclassesBySuperclass apis) sup = some l) {sub : ApiName} (hs : sub ∈ l) :
    .subclass sub sup ∈ apis := by
  refine foldl_keeps (P := fun m : AMap QName (List ApiName) => ∀ sup l, AMap.get? m sup = some l → ∀ sub ∈ l,
    .subclass sub sup ∈ apis) apis (fun _ _ h => by cases h) (fun m hm x hx sup l h sub hs => ?_) sup l h sub hs
  split at h
  · rename_i n s
    rw [AMap.get?_insert] at h
    split at h
    · rename_i e
      cases e
      cases h
      rcases List.mem_append.1 hs with hs | hs
      · cases hg : AMap.get? m sup with
        | none => rw [hg] at hs; cases hs
        | some l => rw [hg] at hs; exact hm sup l hg sub hs
      · rw [List.mem_singleton.1 hs]; exact hx
    · exact hm sup l h sub hs
  · exact hm sup l h sub hs

namespace ConvertStages
variable {fuel : Nat} {hash : Config → Nat} {sigOf : RustSig → RustFnSig} {policy : UnsafePolicy}
  {cfg : Config} {force : Bool} {cb : Callbacks} {items : List BindgenItem} {out : FnApiVec}
  (p : ConvertStages fuel hash sigOf policy cfg force cb items out)
include p

/-- Subclasses are those asked for. -/
theorem found_subclass {sub : ApiName} {sup : QName} (h : .subclass sub sup ∈ p.found.apis) :
    ∃ sc ∈ cfg.subclasses, sub = ⟨⟨[], sc.subclass⟩, none⟩ ∧ sup = QName.ofCppName sc.superclass := by
  obtain ⟨l, ⟨lc, root, outs, -, hroot, -, -⟩, -, -⟩ := (parse_ok_iff ..).1 p.hparse
  rcases parsed_from _ _ _ _ _ root _ p.hparse hroot _ h with h | ⟨c, h1, h2⟩
  · obtain ⟨_, _, _, _, -, -, -, h⟩ := h
    cases h
  · rcases h1 with rfl | h1
    · rcases h2 with h2 | ⟨ns, l, i, o, -, -, hf, hfr, id, hn, -⟩
      · rcases h2 with ⟨-, h⟩ | ⟨sc, hsc, h⟩ | ⟨f, hf, _, -, h⟩ | ⟨q, last, hq, h⟩ | ⟨_, -, h⟩
        · cases h
        · cases h; exact ⟨sc, hsc, rfl, rfl⟩
        · cases h
        · cases h
        · cases h
      · cases item_not_directive hf (named_not_mod hn) hfr
    · cases h1

/-- **C66 (no more than asked for)**: C++ code overriding virtual methods is made only for the subclasses the user asked
for, and only of methods of the class each was said to be a subclass of. -/
theorem override_asked {n sub : ApiName} {d : RustSubclassFnDetails} (h : .rustSubclassFn n sub d ∈ out.apis) :
    ∃ sc ∈ cfg.subclasses, sub = ⟨⟨[], sc.subclass⟩, none⟩ ∧ d.superclass = QName.ofCppName sc.superclass := by
  obtain ⟨q, r, -, -, -, -, hs, -⟩ := p.override_needs_trait h
  have hmem : .subclass sub d.superclass ∈ p.allocs.apis := by
    have he : q.env.subclasses = subclassesBySuperclass p.allocs.apis := by
      have e := q.henv
      rw [FnEnv.ofApis] at e
      obtain ⟨_, -, e⟩ := Option.bind_eq_some_iff.1 e
      obtain ⟨_, -, e⟩ := Option.map_eq_some_iff.1 e
      exact (congrArg FnEnv.subclasses (Prod.mk.inj e).1).symm
    rw [FnEnv.subsOf, he] at hs
    cases hg : AMap.get? (subclassesBySuperclass p.allocs.apis) d.superclass with
    | none => rw [hg] at hs; cases hs
    | some l => rw [hg] at hs; exact bySuperclass_mem hg hs
  rcases p.allocs_from _ hmem with h | h | ⟨a, ha, has⟩
  · cases h
  · cases h
  · have : a = .subclass sub d.superclass := by cases a <;> cases has; rfl
    subst this
    exact p.found_subclass ha

end ConvertStages

/-- **C71**: without Rust subclasses, autocxx does not crash once the items are parsed and well-named and no class holds
itself. -/
theorem convertAll_safe {fuel : Nat} {hash : Config → Nat} {sigOf : RustSig → RustFnSig} {policy : UnsafePolicy}
    {cfg : Config} {force : Bool} {cb : Callbacks} {items : List BindgenItem} {o : CppOptions}
    {cxxgenHeader inclusions : String} {includes : List String} (hsub : cfg.subclasses = [])
    (hparse : parseBindgenItems hash sigOf cfg cb items ≠ none)
    (hfound : ∀ apis, parseBindgenItems hash sigOf cfg cb items = some (.ok apis) → FoundItems hash cfg apis.apis)
    (hself : ∀ apis tds v, parseBindgenItems hash sigOf cfg cb items = some (.ok apis) →
      convertTypedefTargets fuel cfg cb.attrs apis = .done tds →
      analyzePodApis fuel hash cfg cb.attrs tds = .done (.ok v) → NoSelfHolding v.apis) :
    convertAll fuel hash sigOf policy cfg force cb (some items) o cxxgenHeader inclusions includes ≠ .panic := by
  intro h
  obtain ⟨out, hc, h⟩ := convertAll_panics hparse hfound hself h
  obtain ⟨p⟩ := (convert_ok_iff _ _ _ _ _ _ _ _ _).1 hc
  have hno : ∀ n sub d, .rustSubclassFn n sub d ∉ out.apis := fun n sub d hd => by
    obtain ⟨sc, hsc, -⟩ := p.override_asked hd
    rw [hsub] at hsc
    cases hsc
  rcases h with ⟨n, sub, d, sup, hd, -⟩ | ⟨⟨n, sub, d, hd⟩, -⟩
  · exact hno _ _ _ hd
  · exact hno _ _ _ hd

end Verif
