import Verif.TraitMethodProps
import Verif.RsGenExamples
import Verif.FnPassExamples

/-!
# C69: a virtual method which takes a raw pointer, in a class with a subclass in Rust
-/

set_option autoImplicit false

namespace Verif

/-- Of a method of the trait for subclasses: its name, whether it is `unsafe`, whether it can change its object, and
whether subclasses have to write it. -/
def FnApi.traitMethod : FnApi → Option (Ident × Bool × Bool × Bool)
  | .subclassTraitItem _ m =>
    some (m.name, m.requiresUnsafe.wrapperToken, decide (m.receiverMutability = .mutable), m.isPureVirtual)
  | _ => none

/-- What bindgen reports of
```cpp
class C { public: virtual int f(int *p) const; virtual int g() = 0; };
```
-/
def exTraitMethodReports : List BindgenEvent :=
  [.foundMod 0 "root" none, .found 1 "C", .cppName 1 none (some 0), .found 2 "C_f_bindgen_original",
    .cppName 2 (some "f_bindgen_original") (some 0), .virtualness 2 .virtual, .found 3 "C_g_bindgen_original",
    .cppName 3 (some "g_bindgen_original") (some 0), .virtualness 3 .pureVirtual]

/-- What bindgen writes for it. -/
def exTraitMethodItems : List BindgenItem :=
  [.mod "root"
    [.struct "C" [("_address", false, .path ["u8"] [])] [],
      .foreignMod [.fn
        { ident := "C_f_bindgen_original"
          inputs := [.typed "this" (.ptr false (.path ["root", "C"] [])), .typed "p" (.ptr true exCInt)]
          output := some exCInt }],
      .foreignMod [.fn
        { ident := "C_g_bindgen_original"
          inputs := [.typed "this" (.ptr true (.path ["root", "C"] []))]
          output := some exCInt }],
      .impl (.path ["C"] []) [.fn "f_bindgen_original" [.call ["C_f_bindgen_original"]],
        .fn "g_bindgen_original" [.call ["C_g_bindgen_original"]]]]]

instance : DecidableEq (Ident × Bool × Bool × Bool) := inferInstance

set_option maxRecDepth 10000 in
set_option synthInstance.maxSize 1024 in
/-- The one which takes a pointer is `unsafe`, the other is not. -/
theorem exTraitMethods :
    (exConvert (exSubCfg [("C", "S")]) exTraitMethodReports exTraitMethodItems).items.map
      (List.filterMap FnApi.traitMethod) = some [("f", true, false, false), ("g", false, true, true)] := by
  decide_run

/-- Non-trivial instance of `trait_method_partial`. -/
theorem trait_method_witness : ∃ out, Nonempty (ConvertStages 100 (fun _ => 0) exSig .allFunctionsSafe (exSubCfg [("C", "S")])
      false (.ofEvents exTraitMethodReports) exTraitMethodItems out) ∧
    (∃ n m, .subclassTraitItem n m ∈ out.apis ∧ m.requiresUnsafe.wrapperToken = true) ∧
    ∃ n m, .subclassTraitItem n m ∈ out.apis ∧ m.requiresUnsafe.wrapperToken = false := by
  obtain ⟨l, hl, e⟩ := Option.map_eq_some_iff.1 exTraitMethods
  obtain ⟨out, hr, rfl⟩ := PassRun.items_some hl
  have key : ∀ x ∈ [("f", true, false, false), ("g", false, true, true)],
      ∃ n m, .subclassTraitItem n m ∈ out.apis ∧ m.requiresUnsafe.wrapperToken = x.2.1 := by
    intro x hx
    rw [← e] at hx
    obtain ⟨a, ha, h⟩ := List.mem_filterMap.1 hx
    cases a with
    | subclassTraitItem n m => exact ⟨n, m, ha, congrArg (fun x => x.2.1) (Option.some.inj h)⟩
    | _ => cases h
  exact ⟨out, (convert_ok_iff ..).1 hr, key ("f", true, false, false) (by simp), key ("g", false, true, true) (by simp)⟩

/-! ## What is made for one method -/

/-- How many functions C++ calls and how many methods of traits are among some items. -/
def countMade (l : List FnPre1Api) : Nat × Nat :=
  (l.countP fun a => match a with | .rustSubclassFn .. => true | _ => false,
    l.countP fun a => match a with | .subclassTraitItem .. => true | _ => false)

theorem exSteps_counts : (exSteps .allFunctionsSafe (exSubApis .virtual exBarTy .pub)).map countMade = some (1, 1) := by
  rw [exSteps_lit]; decide_known

/-- Non-trivial instance of `override_agrees`. -/
theorem override_agrees_witness : ∃ env s s' name f l, analyzeFnAndSubclasses env s name f = .done (s', l) ∧
    (∃ n sub d, .rustSubclassFn n sub d ∈ l) ∧ ∃ tn m, .subclassTraitItem tn m ∈ l := by
  obtain ⟨l, hl, e⟩ := Option.map_eq_some_iff.1 exSteps_counts
  obtain ⟨env, s, s', out, -, hr, rfl⟩ := exSteps_real hl
  have e1 := congrArg Prod.fst e
  have e2 := congrArg Prod.snd e
  simp only [countMade] at e1 e2
  obtain ⟨x, hx, hx'⟩ := List.countP_pos_iff.1 (e1 ▸ Nat.one_pos)
  obtain ⟨y, hy, hy'⟩ := List.countP_pos_iff.1 (e2 ▸ Nat.one_pos)
  have hx := extend_mem_cases _ ApiVec.inv_empty hx
  have hy := extend_mem_cases _ ApiVec.inv_empty hy
  unfold exSubApis at hr
  simp only [fnSteps, fnStep, PassRun.bind] at hr
  generalize hg : analyzeFnAndSubclasses env s _ _ = g at hr
  cases g with
  | done r =>
    obtain ⟨s4, o4⟩ := r
    simp only [PassRun.done.injEq, Prod.mk.injEq] at hr
    obtain ⟨-, rfl⟩ := hr
    refine ⟨env, _, s4, _, _, o4, hg, ?_, ?_⟩
    · cases x <;> try (cases hx'; done)
      rcases hx with h | h | ⟨q, h⟩
      · cases h
      · exact ⟨_, _, _, by simpa using h⟩
      · cases h
    · cases y <;> try (cases hy'; done)
      rcases hy with h | h | ⟨q, h⟩
      · cases h
      · exact ⟨_, _, by simpa using h⟩
      · cases h
  | panic => cases hr
  | diverges => cases hr

/-! ## A whole pass -/

/-- The first thing each function C++ calls asks for, and the names of the methods of traits. -/
def asksAndTraits (l : List FnPre1Api) : List (Option QName) × List QName :=
  (l.filterMap fun a => match a with | .rustSubclassFn _ _ d => some d.dependencies.head? | _ => none,
    l.filterMap fun a => match a with | .subclassTraitItem n _ => some n.name | _ => none)

theorem exSteps_asks : (exSteps .allFunctionsSafe (exSubApis .virtual exBarTy .pub)).map asksAndTraits =
    some ([some ⟨[], "Base_on_trait_item"⟩], [⟨[], "Base_on_trait_item"⟩]) := by
  rw [exSteps_lit]; decide_known

/-- Non-trivial instance of `pass_agrees_partial`, where the first of its two cases must hold: there is only one function. -/
theorem pass_agrees_witness : ∃ env s s' l out, fnSteps env s l = .done (s', out) ∧
    (∀ n sub d, .rustSubclassFn n sub d ∉ l) ∧ (∀ n m, .subclassTraitItem n m ∉ l) ∧
    (∃ n sub d tn m, .rustSubclassFn n sub d ∈ out ∧ .subclassTraitItem tn m ∈ out ∧
      d.dependencies.head? = some tn.name) ∧
    ∀ n1 f1 u1 n2 f2 u2, ¬ [Api.function n1 f1 u1, .function n2 f2 u2].Sublist l := by
  obtain ⟨l, hl, e⟩ := Option.map_eq_some_iff.1 exSteps_asks
  obtain ⟨env, s, s', out, -, hr, rfl⟩ := exSteps_real hl
  have e1 : some ⟨[], "Base_on_trait_item"⟩ ∈ (asksAndTraits (ApiVec.fromIter out).apis).1 := by
    rw [e]; exact List.mem_singleton_self _
  have e2 : ⟨[], "Base_on_trait_item"⟩ ∈ (asksAndTraits (ApiVec.fromIter out).apis).2 := by
    rw [e]; exact List.mem_singleton_self _
  obtain ⟨x, hx, hx'⟩ := List.mem_filterMap.1 e1
  obtain ⟨y, hy, hy'⟩ := List.mem_filterMap.1 e2
  have hx := extend_mem_cases _ ApiVec.inv_empty hx
  have hy := extend_mem_cases _ ApiVec.inv_empty hy
  refine ⟨env, s, s', _, out, hr, by simp [exSubApis], by simp [exSubApis], ?_, ?_⟩
  · cases x <;> try (cases hx'; done)
    cases y <;> try (cases hy'; done)
    rcases hx with h | h | ⟨q, h⟩
    · cases h
    · rcases hy with k | k | ⟨q, k⟩
      · cases k
      · exact ⟨_, _, _, _, _, h, k, (Option.some.inj hx').trans hy'.symm⟩
      · cases k
    · cases h
  · intro n1 f1 u1 n2 f2 u2 h
    have := h.countP_le (p := fun a => match a with | .function .. => true | _ => false)
    simp [exSubApis] at this

end Verif
