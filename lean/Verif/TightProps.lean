import Verif.SubFnProps
import Verif.CppSubProps
import Verif.RsSigProps
import Verif.ParseFile

/-!
# What is made up for classes and subclasses, in detail

Theorems about the members which autocxx makes up, about the C++ for calling a method of the superclass and for
allocating memory, and about which modules are bridges.
-/

set_option autoImplicit false

namespace Verif

/-! ## Made-up members -/

/-- What C++ would have a special member of a class take: the object, and what is copied or moved from. -/
inductive MemberTakes (ty : Ty) : SpecialMemberKind → List FnArg → Prop
  /-- `T(const T& other)` -/
  | copy : MemberTakes ty .copyConstructor
      [.typed "this" (.ptr true ty), .typed "other" (.path ["__bindgen_marker_Reference"] [.ptr false ty])]
  /-- `T(T&& other)` -/
  | move : MemberTakes ty .moveConstructor
      [.typed "this" (.ptr true ty), .typed "other" (.path ["__bindgen_marker_RValueReference"] [.ptr true ty])]
  | default : MemberTakes ty .defaultConstructor [.typed "this" (.ptr true ty)]
  | destructor : MemberTakes ty .destructor [.typed "this" (.ptr true ty)]

/-- **C13 (what is made up)**: a special member which is made up is one which the class needs, is public, and takes what
C++ has such a member take. -/
theorem member_takes {env : FnEnv} {found : AMap QName ItemsFound} {name : ApiName} {f : FuncToConvert}
    (h : MemberWanted env found name f) : ∃ key i k, (key, i) ∈ found ∧ k ∈ membersNeeded i ∧ f.specialMember = some k ∧
      f.cppVis = .pub ∧ f.isDeleted = none ∧ f.output = none ∧ f.selfTy = i.name.map (·.name) ∧
      MemberTakes (.path key.toTypePath []) k f.inputs := by
  obtain ⟨-, key, i, n, k, h1, h2, h3, -, -, rfl⟩ := h
  refine ⟨key, i, k, h1, h3, rfl, rfl, rfl, rfl, by rw [h2]; rfl, ?_⟩
  have hk : k = .defaultConstructor ∨ k = .copyConstructor ∨ k = .moveConstructor ∨ k = .destructor := by
    simp only [membersNeeded, List.mem_append] at h3
    revert h3
    split <;> split <;> split <;> split <;> simp <;> tauto
  rcases hk with rfl | rfl | rfl | rfl
  · exact .default
  · exact .copy
  · exact .move
  · exact .destructor

/-! ## Constructors of subclasses -/

/-- A destructor of a class which anyone can call. -/
def CanBeDestroyed (apis : List FnPre2Api) (q : QName) : Prop :=
  ∃ n f a t d, .function n f a ∈ apis ∧ a.kind = .traitMethod t q d ∧ f.specialMember = some .destructor ∧
    f.isDeleted ≠ some .deleted ∧ f.cppVis = .pub

/-- **C66 (constructors)**: a constructor is made for a subclass exactly if there is a constructor of the superclass and
objects of the superclass can be destroyed. -/
theorem subclass_ctor_iff {env : FnEnv} {apis : List FnPre2Api} {name : ApiName} {g : FuncToConvert} :
    CtorWanted env apis name g ↔ ∃ n f a sup, .function n f a ∈ apis ∧ a.kind.constructorOf = some sup ∧
      CanBeDestroyed apis sup ∧ ∃ sub ∈ env.subsOf sup, subclassConstructor sub a sup f = some (g, name) := by
  have key : ∀ q, q ∈ typesWithDestructors apis ↔ CanBeDestroyed apis q := by
    intro q
    rw [typesWithDestructors, List.mem_filterMap]
    constructor
    · rintro ⟨x, hx, e⟩
      cases x with
      | function n f a =>
        dsimp only at e
        split at e
        · rename_i t q' d hk
          split at e
          · rename_i hc
            cases e
            exact ⟨n, f, a, t, d, hx, hk, hc⟩
          · cases e
        · cases e
      | _ => cases e
    · rintro ⟨n, f, a, t, d, hx, hk, hc⟩
      refine ⟨_, hx, ?_⟩
      dsimp only
      rw [hk]
      dsimp only
      rw [if_pos hc]
  constructor
  · rintro ⟨n, f, a, sup, h1, h2, h3, h4⟩
    exact ⟨n, f, a, sup, h1, h2, (key sup).1 h3, h4⟩
  · rintro ⟨n, f, a, sup, h1, h2, h3, h4⟩
    exact ⟨n, f, a, sup, h1, h2, (key sup).2 h3, h4⟩

/-! ## Calling the superclass -/

/-- **C66 (calling the superclass)**: the member function of the C++ class of a subclass which calls the superclass's
version of a method passes on its parameters as they are, and nothing else, and is `const` exactly if the override is. -/
theorem super_call_text {env : FnEnv} {s s' : FnState} {name n : ApiName} {f : FuncToConvert} {pre : Option String}
    {a : FnAnalysis} (ha : analyzeForeignFn env s name f .simpleForSubclasses pre = .done (s', a, n)) {policy : UnsafePolicy}
    {sub nm : ApiName} {recv : ReceiverMutability} {sup : QName} {deps : List QName} {rn rs : ApiName}
    {d : RustSubclassFnDetails} (hd : (.rustSubclassFn rn rs d : FnPre1Api) = subclassFunction policy sub a nm recv sup deps)
    {m : CppNameMap} {e : ExtraCpp}
    (h : generateCppFunctionInner m (superMethod sup d.cppImpl) true .cppCallsCpp false none = .ok e) :
    ∃ fn, SuperText m (superMethod sup d.cppImpl) (sup.ns ++ [sup.name, nm.effectiveCppName]) e fn ∧
      (fn.isConst = true ↔ recv ≠ .mutable) ∧ fn.name = a.rustName ++ "_super" := by
  cases hd
  have hk : ∀ r : ReceiverMutability, (if r = .mutable then CppFunctionKind.method else .constMethod) ≠ .synthesizedConstructor := by
    intro r; split <;> exact fun h => by cases h
  obtain ⟨t⟩ := analyze_steps ha
  have hnp : ∀ x ∈ a.paramDetails, x.conversion.isPlacementParameter = false := by
    intro x hx
    rw [t.details_eq, simple_no_place t, Option.toList_none, List.append_nil] at hx
    obtain ⟨q, hq, rfl⟩ := List.mem_map.1 hx
    exact reanalyzeParams_not_place t.hre (t.hparams.not_place rfl) q hq
  obtain ⟨fn, ht⟩ := super_generated rfl rfl (by exact hk recv) (fun p hp => by
    obtain ⟨x, hx, rfl⟩ := List.mem_map.1 hp
    exact hnp x (List.mem_of_mem_drop hx)) h
  refine ⟨fn, ht, ?_, ?_⟩
  · rw [ht.isConst]
    show (if recv = .mutable then CppFunctionKind.method else .constMethod) = .constMethod ↔ _
    split
    · rename_i hr; simp [hr]
    · rename_i hr; simp [hr]
  · rw [ht.name]; rfl

/-! ## Allocating memory -/

/-- **C27 (headers)**: the C++ for a function which allocates or frees memory includes the helpers for this; any other
does not. -/
theorem allocation_headers {m : CppNameMap} {d : CppFunction} {av : Bool} {dir : ConversionDirection} {rd : Bool}
    {force : Option String} {e : ExtraCpp} (h : generateCppFunctionInner m d av dir rd force = .ok e) :
    .system "memory" ∈ e.headers ∧
    (.newDeletePrelude ∈ e.headers ↔ ∃ ty, d.payload = .allocUninitialized ty ∨ d.payload = .freeUninitialized ty) ∧
    (.newDeletePrelude ∈ e.headers → .system "stddef.h" ∈ e.headers) := by
  obtain ⟨t⟩ := gen_steps h
  have hc := t.hcall
  have key : t.allocators = true ↔ ∃ ty, d.payload = .allocUninitialized ty ∨ d.payload = .freeUninitialized ty := by
    generalize hp : d.payload = p at hc
    generalize t.call = c, t.fields = f, t.allocators = al at hc
    clear hp
    cases p <;> simp only [payloadCall] at hc
    case placementNew => split at hc <;> cases hc; simp
    case functionCall => split at hc <;> (cases hc; simp)
    all_goals (cases hc; simp)
  have he := t.he
  rw [← key]
  generalize t.allocators = al at he ⊢
  rw [he]
  cases al <;> simp [assembleCpp]

/-! ## Bridges -/

/-- **C40 (bridges)**: a module is taken for a bridge of cxx exactly if one of its attributes is `#[cxx::bridge]`, written
so. -/
theorem bridge_iff (attrs : List Attr) :
    attrs.any Attr.isBridge = true ↔ ∃ a ∈ attrs, a.leading = false ∧ a.path = ["cxx", "bridge"] := by
  simp [List.any_eq_true, Attr.isBridge]

example : ([{ leading := false, path := ["tokio", "bridge"] }] : List Attr).any Attr.isBridge = false := by decide

/-! ## Overrides bring their trait -/

namespace ConvertStages
variable {fuel : Nat} {hash : Config → Nat} {sigOf : RustSig → RustFnSig} {policy : UnsafePolicy}
  {cfg : Config} {force : Bool} {cb : Callbacks} {items : List BindgenItem} {out : FnApiVec}
  (p : ConvertStages fuel hash sigOf policy cfg force cb items out)
include p

/-- **C56 (overrides)**: what C++ calls for a virtual method depends on the method of the trait which the Rust subclass
implements – of the superclass, and named like the method. So that is delivered with it. -/
theorem override_needs_trait {n sub : ApiName} {d : RustSubclassFnDetails} (h : .rustSubclassFn n sub d ∈ out.apis) :
    ∃ q : FnPassStages fuel hash policy cfg force p.allocs.apis p.fns, ∃ r ∈ q.runs, r.Ok q.env ∧
      n.name.name = sub.name.name ++ "_" ++ r.n.name.name ∧
      r.a.kind.virtualOf = some (d.superclass, d.receiverMutability) ∧ sub ∈ q.env.subsOf d.superclass ∧
      traitApiName d.superclass r.a.rustName ∈ d.dependencies ∧
      (isKnownType (traitApiName d.superclass r.a.rustName) = true ∨
        (∃ b ∈ out.apis, b.name = traitApiName d.superclass r.a.rustName) ∨
        ∃ sc ∈ cfg.subclasses, traitApiName d.superclass r.a.rustName = ⟨[], sc.subclass ++ "Holder"⟩ ∨
          traitApiName d.superclass r.a.rustName = ⟨[], sc.subclass ++ "Cpp"⟩) := by
  rcases p.delivered_reachable h with ⟨_, _, e⟩ | ⟨z, hz, -, e, hreach⟩
  · cases e
  · rcases e with rfl | e
    · obtain ⟨-, -, x, hx, hs, -⟩ := p.item_origin hz rfl
      obtain ⟨q⟩ := p.fn_stages
      have ho := items_from q hx
      cases ho with
      | @kept w hw hf =>
        exfalso
        rw [shape_map] at hs
        rcases p.allocs_from w hw with h | h | ⟨a, ha, has⟩
        · cases w <;> first | (cases h; done) | cases hs
        · cases h <;> cases hs
        · have h1 := parsed_kinds p.hparse ha
          have h2 := has.trans hs
          cases a <;> first | (cases h2; done) | exact h1
      | fn => cases hs
      | @override_ r r2 hr hr2 sup recv hv sub' hsub deps ha hd =>
        have hc := (p.collected_iff _).2 ⟨hz, hreach⟩
        rw [withConstructors_eq] at hs
        cases hs
        refine ⟨q, r, hr, q.trace.ok r hr, rfl, hv, hsub, hd, ?_⟩
        rcases p.delivered.closed _ hc rfl _ (by exact hd) with h | ⟨b, hb, hbn, -⟩ | ⟨sc, hsc, he, -⟩
        · exact .inl h
        · obtain ⟨b', hb', hn', -⟩ := p.collected_delivered hb
          exact .inr (.inl ⟨b', hb', by rw [hn', hbn]⟩)
        · exact .inr (.inr ⟨sc, hsc, he⟩)
      | trait_ => cases hs
      | inst => cases hs
      | marker h => rw [h] at hs; cases hs
    · cases e

end ConvertStages

end Verif
