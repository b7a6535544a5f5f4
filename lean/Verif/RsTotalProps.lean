import Verif.FrontTotalProps
import Verif.RsPipeProps

/-!
# C71: generating the Rust code of a well-named header never panics

The last step of a conversion makes Rust code for every delivered item. It unwraps, indexes and asserts: the first
parameter of an overridden method, the last segment of a path, the pinned object of a method, the directive a
Rust function was asked for by. Here it is shown that every item the analyses deliver is one these succeed for.
-/

set_option autoImplicit false

namespace Verif

theorem afterSelf_some {params : List FnArg} (h : params ≠ []) : afterSelf params ≠ none := by
  cases params with
  | nil => exact absurd rfl h
  | cons => exact fun h => by cases h

/-- Nothing is made of a method without an object, and nothing else fails. -/
theorem superclassTraits_some {q : QName} {ms : Option (List SuperclassMethod)}
    (h : ∀ l, ms = some l → ∀ m ∈ l, m.params ≠ []) : superclassTraits q ms ≠ none := by
  cases ms with
  | none => exact fun h => by cases h
  | some l =>
    have : ∀ m ∈ l, traitFns m ≠ none := fun m hm => by
      rw [traitFns, Ne, Option.map_eq_none_iff]
      exact afterSelf_some (h l rfl m hm)
    obtain ⟨r, hr⟩ := mapM_some this
    rw [superclassTraits, hr]
    exact fun h => by cases h

theorem supersImpl_some {n : ApiName} {q : QName} {ms : Option (List SuperclassMethod)}
    (h : ∀ l, ms = some l → ∀ m ∈ l, m.params ≠ []) : supersImpl n q ms ≠ none := by
  cases ms with
  | none => exact fun h => by cases h
  | some l =>
    have : ∀ m ∈ l.filter fun m => !m.isPureVirtual, supersFn m ≠ none := fun m hm => by
      rw [supersFn, Ne, Option.map_eq_none_iff]
      exact afterSelf_some (h l rfl m (List.mem_filter.1 hm).1)
    obtain ⟨r, hr⟩ := mapM_some this
    rw [supersImpl, hr]
    exact fun h => by cases h

theorem genType_some {cfg : Config} {m : CppNameMap} {q : QName} {k : TypeKind} {mv ds : Bool} {n : Nat}
    {ms : Option (List SuperclassMethod)} (h : ∀ l, ms = some l → ∀ m ∈ l, m.params ≠ []) :
    genType cfg m q k mv ds ms n ≠ none := by
  rw [genType, Ne, Option.map_eq_none_iff]
  exact superclassTraits_some h

theorem genSubclassFn_some {name : Ident} {d : RustSubclassFnDetails} (h : SubFit d.params d.ret) :
    genSubclassFn name d ≠ none := by
  have : ∀ p ∈ d.params, FnArg.unqualify p ≠ none := fun p hp => by
    obtain ⟨n, t, rfl, ht⟩ := h.1 p hp
    rw [FnArg.unqualify, Ne, Option.map_eq_none_iff]
    exact unqualify_some ht
  obtain ⟨r, hr⟩ := mapM_some this
  rw [genSubclassFn, hr, Option.bind_some, Ne, Option.map_eq_none_iff]
  cases hret : d.ret with
  | none => exact fun h => by cases h
  | some t =>
    rw [unqualifyRetTy, Option.map_eq_none_iff]
    exact unqualify_some (h.2 t hret)

/-- What is known of an item all analyses let through. -/
theorem genApi_some {hash : Config → Nat} {policy : UnsafePolicy} {cfg : Config} {apis : List FnApi} {b : FnApi}
    (h : ∀ x ∈ apis, OutOk x) (hb : b ∈ apis)
    (hd : b.fromDirective = true → (∀ n sup, b ≠ .subclass n sup) →
      ∃ c, genApi (RsEnv.ofApis hash policy cfg apis) b = some c) :
    genApi (RsEnv.ofApis hash policy cfg apis) b ≠ none := by
  have hm : ∀ q l, AMap.get? (RsEnv.ofApis hash policy cfg apis).methods q = some l → ∀ m ∈ l, m.params ≠ [] := by
    intro q l hl m hml
    change AMap.get? (superclassMethods cfg apis) q = some l at hl
    rw [superclass_methods] at hl
    split at hl
    · cases hl
      obtain ⟨x, hx, e⟩ := List.mem_filterMap.1 hml
      split at e
      · split at e
        · cases e
          exact (h _ hx).2
        · cases e
      · cases e
    · cases hl
  cases b with
  | stringConstructor n => exact fun h => by cases h
  | function n f a =>
    rw [genApi, Ne, Option.map_eq_none_iff]
    exact genFunction_some (h _ hb).2.1.bind _ _
  | const | typedef => exact fun h => by cases h
  | struct | enum | concreteType | forwardDeclaration | opaqueTypedef =>
    rw [genApi]
    exact genType_some (hm _)
  | ctype => exact fun h => by cases h
  | rustType | rustFn | externCppType =>
    obtain ⟨c, hc⟩ := hd rfl (fun _ _ e => by cases e)
    rw [hc]
    exact fun h => by cases h
  | rustSubclassFn n s d =>
    rw [genApi]
    exact genSubclassFn_some (h _ hb).2.1
  | subclass n sup =>
    rw [genApi, genSubclass, Ne, Option.map_eq_none_iff]
    exact supersImpl_some (hm _)
  | ignoredItem n e c => cases c <;> exact fun h => by cases h
  | subclassTraitItem => exact fun h => by cases h

section
variable {fuel : Nat} {hash : Config → Nat} {sigOf : RustSig → RustFnSig} {policy : UnsafePolicy} {cfg : Config}
  {force : Bool} {cb : Callbacks} {items : List BindgenItem} {out : FnApiVec}

namespace ConvertStages
variable (p : ConvertStages fuel hash sigOf policy cfg force cb items out)
include p

/-- What the analysis of functions gives for well-named items. -/
theorem fns_ok (hfound : FoundItems hash cfg p.found.apis) (hself : NoSelfHolding p.pods.apis) :
    ∀ x ∈ p.fns.apis, OutOk x := by
  obtain ⟨h2, h3⟩ := (typedef_pass_safe (fuel := fuel) (attrs := cb.attrs) hfound).2 _ p.htypedefs
  have h4 := (pod_pass_safe (fuel := fuel) (attrs := cb.attrs) h2 h3).2 _ p.hpods _ rfl hself
  exact (function_pass_safe (allocs_good (casts_good (hopeless_good h4))).good).2 _ p.hfns

/-- What is delivered was there after the passes, or has no C++ name of its own. -/
theorem delivered_plain {b : FnApi} (hb : b ∈ out.apis) : b.nameInfo.cppName = none ∨ b ∈ p.filtered.apis := by
  have hget := (ApiVec.get?_some_iff p.out_inv b.name b).2 ⟨hb, rfl⟩
  have hout := (congrArg (fun v => ApiVec.get? v b.name) p.hout).trans (appendCtypes_get p.collected p.collected_inv b.name)
  rw [hget] at hout
  have old : some b = p.collected.get? b.name → b ∈ p.filtered.apis := fun h =>
    ((p.collected_iff b).1 ((ApiVec.get?_some_iff p.collected_inv _ _).1 h.symm).1).1
  split at hout
  · split at hout
    · left
      cases hz : p.collected.get? b.name with
      | none =>
        rw [hz] at hout
        rw [Option.some.inj hout]
        rfl
      | some z =>
        rw [hz] at hout
        rw [Option.some.inj hout]
        rfl
    · exact .inr (old hout)
  · exact .inr (old hout)

/-- Every pass keeps the names. -/
theorem filtered_named {y : FnApi} (hy : y ∈ p.filtered.apis) : ∃ x ∈ p.fns.apis, x.nameInfo = y.nameInfo := by
  have hy : y.nameInfo ∈ p.filtered.apis.map (·.nameInfo) := List.mem_map.2 ⟨y, hy, rfl⟩
  rw [show p.filtered = removeIgnored p.named from rfl, remove_ignored_names p.named p.named_inv] at hy
  obtain ⟨d, hd, ed⟩ := List.mem_map.1 hy
  obtain ⟨c, hc, fd⟩ := (check_names_fates _ _ p.discarded_inv p.hnamed).right hd
  have e3 : c.nameInfo = d.nameInfo := by cases fd <;> rfl
  obtain ⟨b, hb, fc⟩ := (discard_ignored_functions_spec _ p.decorated_inv).right hc
  have e2 : b.nameInfo = c.nameInfo := by cases fc <;> rfl
  obtain ⟨a, ha, fb⟩ := (constructor_deps p.marked p.marked_spec.1).right hb
  have e1 : a.nameInfo = b.nameInfo := by
    cases fb with
    | none => rfl
    | some => rfl
    | other =>
      rw [← shape_nameInfo a, ← shape_nameInfo (Api.mapAnalysis _ _ _ a), shape_map]
  obtain ⟨-, keep, hk, h1⟩ := p.marked_spec
  obtain ⟨x, hx, fa⟩ := h1.right ha
  refine ⟨x, (List.mem_filter.1 hx).1, ?_⟩
  have e0 : x.nameInfo = a.nameInfo := by cases fa <;> rfl
  rw [e0, e1, e2, e3, ed]

/-- What reaches code generation. -/
theorem delivered_ok (hfound : FoundItems hash cfg p.found.apis) (hself : NoSelfHolding p.pods.apis) :
    ∀ x ∈ out.apis, OutOk x := by
  intro b hb
  have hok := p.fns_ok hfound hself
  refine ⟨?_, ?_⟩
  · rcases p.delivered_plain hb with h | h
    · exact cppNamed_none h
    · obtain ⟨x, hx, e⟩ := p.filtered_named h
      rw [← e]
      exact (hok x hx).1
  rcases p.delivered_reachable hb with ⟨n, q, rfl⟩ | ⟨z, hz, -, e, -⟩
  · trivial
  · rcases e with rfl | rfl
    · cases b with
      | function n f a => exact (hok _ (p.delivered_function hb).1).2
      | rustSubclassFn n s d =>
        obtain ⟨-, -, x, hx, hs, -⟩ := p.item_origin hz rfl
        have := (hok x hx).2
        cases x <;> first | (cases hs; done) | (cases hs; exact this)
      | subclassTraitItem n d =>
        obtain ⟨-, -, x, hx, hs, -⟩ := p.item_origin hz rfl
        have := (hok x hx).2
        cases x <;> first | (cases hs; done) | (cases hs; exact this)
      | concreteType n r c =>
        obtain ⟨-, -, x, hx, hs, -⟩ := p.item_origin hz rfl
        have := (hok x hx).2
        cases x <;> first | (cases hs; done) | (cases hs; exact this)
      | _ => trivial
    · trivial

/-- **C71 (every item)**: Rust code can be made for every item the analyses deliver. -/
theorem items_generated (hfound : FoundItems hash cfg p.found.apis) (hself : NoSelfHolding p.pods.apis) :
    ∀ b ∈ out.apis, genApi (RsEnv.ofApis hash policy cfg out.apis) b ≠ none := fun _ hb =>
  genApi_some (p.delivered_ok hfound hself) hb fun hd hs => p.configured_items_found hb hd hs _ rfl

/-- **C71 (Rust code)**: generating the Rust code panics exactly if some delivered item needs C++ code and no header
holds any. -/
theorem rust_code_panics_iff (hfound : FoundItems hash cfg p.found.apis) (hself : NoSelfHolding p.pods.apis)
    {includes : List String} {headerName : Option String} :
    generateRsCode hash policy cfg includes headerName out.apis = none ↔
      (∃ a ∈ out.apis, NeedsCpp a) ∧ headerName = none := by
  rw [rs_code_panics_iff]
  exact ⟨fun h => h.elim (fun ⟨a, ha, e⟩ => absurd e (p.items_generated hfound hself a ha)) id, .inr⟩

end ConvertStages
end

end Verif
