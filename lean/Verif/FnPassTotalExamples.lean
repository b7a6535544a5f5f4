import Verif.FnPassTotalProps
import Verif.FnExamples

/-!
# The function analysis does not panic: an example
-/

set_option autoImplicit false

namespace Verif

theorem root_good {s : String} (h1 : isIdentText s = true) (h2 : leadsWell s.toList = true) : GoodQ ⟨[], s⟩ := by
  intro x hx
  simp [QName.segs] at hx
  exact hx ▸ ⟨h1, h2⟩

/-- `root::Foo*`. -/
def exFooPtr : Ty := .ptr true (.path ["root", "Foo"] [])

theorem exFooPtr_good : GoodTy exFooPtr := by
  refine .ptr (.path (q := ⟨[], "Foo"⟩) (by decide) (root_good (by decide) (by decide)) ?_ (by simp))
  intro h
  exact absurd (isPin_name h) (by decide)

theorem exFooPtr_noRef : NoRef exFooPtr := .ptr (.path (by simp))

/-- `virtual Foo* Foo::go(Foo* other)`. -/
def exGoFn : FuncToConvert :=
  { ident := "Foo_go", inputs := [.typed "this" exFooPtr, .typed "other" exFooPtr], output := some exFooPtr,
    selfTy := some ⟨[], "Foo"⟩, virtualness := some .virtual }

/-- `Foo::Foo()`. -/
def exNewFn : FuncToConvert :=
  { ident := "Foo_Foo", inputs := [.typed "this" exFooPtr], selfTy := some ⟨[], "Foo"⟩ }

/-- `class Bar { Bar* b }; class Foo : Bar { Bar bar; … }`, and a Rust subclass of `Foo`. -/
def exGoodApis : List PodApi :=
  [.struct ⟨⟨[], "Bar"⟩, none⟩ {} { kind := .pod },
   .struct ⟨⟨[], "Foo"⟩, none⟩ {} { bases := [⟨[], "Bar"⟩], fieldDefinitionDeps := [⟨[], "Bar"⟩] },
   .function ⟨⟨[], "Foo_go"⟩, some "go"⟩ exGoFn (),
   .function ⟨⟨[], "Foo_Foo"⟩, some "Foo"⟩ exNewFn (),
   .subclass ⟨⟨[], "MyFoo"⟩, none⟩ ⟨[], "Foo"⟩]

theorem exGood_fn {name : ApiName} {f : FuncToConvert} {nested : AMap QName String} (hns : name.name.ns = [])
    (hi : isIdentText f.ident = true) (hc : ∀ c, name.cppName = some c → isIdentText c = true)
    (hin : ∃ l, f.inputs = .typed "this" exFooPtr :: l ∧ ∀ i ∈ l, i = .typed "other" exFooPtr)
    (hout : ∀ t, f.output = some t → t = exFooPtr) (hself : f.selfTy = some ⟨[], "Foo"⟩)
    (h1 : f.synthesizedThisType = none) (h2 : f.addToTrait = none) (h3 : f.specialMember = none)
    (hn : CppNamed name) (h4 : f.syntheticCpp = none) (h5 : f.provenance = .bindgen) :
    GoodFn nested name f ∧ FnShape nested name f := by
  obtain ⟨l, hin, hl⟩ := hin
  refine ⟨⟨by simp [hns], hi, hc, ?_, fun t ht => hout t ht ▸ exFooPtr_good, ?_, by simp [h1], by simp [h2], by simp [h2],
    ?_, by simp [h3]⟩, ⟨fun _ => ⟨true, _, l, hin⟩, by simp [h3], by simp [MakesOrDestroys, h3], hn, by simp [h4], by simp [h5]⟩⟩
  · intro i hi
    rw [hin] at hi
    rcases List.mem_cons.1 hi with rfl | hi
    · exact .typed (by decide) exFooPtr_good exFooPtr_noRef
    · rw [hl i hi]; exact .typed (by decide) exFooPtr_good exFooPtr_noRef
  · intro q hq; rw [hself] at hq; cases hq; decide
  · intro q _ hno
    exact absurd (by rw [hin]; exact List.mem_cons_self) (hno exFooPtr)

theorem exGoodNames : ∀ x ∈ exGoodApis, CppNamed x.nameInfo := by
  intro x hx hns c hc
  simp only [exGoodApis, List.mem_cons, List.not_mem_nil, or_false] at hx
  rcases hx with rfl | rfl | rfl | rfl | rfl <;> cases hc
  · exact ⟨by decide, by decide⟩
  · exact ⟨by decide, by decide⟩

/-- The hypotheses of `function_pass_safe` can be met. -/
theorem exGoodApis_good (hash : Config → Nat) (p : UnsafePolicy) : GoodPodApis hash (exFnCfg p) exGoodApis where
  allow n := by simp [exFnCfg, Config.isOnAllowlist]
  names x hx := exGoodNames x hx
  typedefs n i o a h := by simp [exGoodApis] at h
  concretes n r c h := by simp [exGoodApis] at h
  nested n h x hx := by
    have : n = ⟨⟨[], "Bar"⟩, none⟩ ∨ n = ⟨⟨[], "Foo"⟩, none⟩ := by
      rcases h with ⟨d, a, h⟩ | ⟨i, h⟩
      · simp [exGoodApis] at h; rcases h with h | h <;> simp [h]
      · simp [exGoodApis] at h
    have hno : finalSegment n.effectiveCppName = none := by
      rcases this with rfl | rfl <;> decide +kernel
    rw [hno] at hx
    cases hx
  subs n sup h := by
    simp [exGoodApis] at h
    rw [h.1]
    exact root_good (by decide) (by decide)
  traits := by decide
  items := by
    refine ⟨?_, ?_, ⟨fun q => if q = ⟨[], "Foo"⟩ then 1 else 0, ?_⟩, ?_, ?_, by simp [exGoodApis]⟩
    · intro n f u h
      simp [exGoodApis] at h
      rcases h with ⟨rfl, rfl⟩ | ⟨rfl, rfl⟩
      · exact exGood_fn rfl (by decide) (by simp; decide) ⟨_, rfl, by simp⟩ (by simp [exGoFn]) rfl rfl rfl rfl
          (exGoodNames (.function _ exGoFn ()) (by simp [exGoodApis])) rfl rfl
      · exact exGood_fn rfl (by decide) (by simp; decide) ⟨_, rfl, by simp⟩ (by simp [exNewFn]) rfl rfl rfl rfl
          (exGoodNames (.function _ exNewFn ()) (by simp [exGoodApis])) rfl rfl
    · intro n d a h
      simp [exGoodApis] at h
      rcases h with ⟨rfl, -, rfl⟩ | ⟨rfl, -, rfl⟩
      · exact ⟨root_good (by decide) (by decide), fun h => absurd (isPin_name h) (by decide), by simp⟩
      · exact ⟨root_good (by decide) (by decide), fun h => absurd (isPin_name h) (by decide), by simp⟩
    · intro n d a h q hq
      simp [exGoodApis] at h
      rcases h with ⟨rfl, -, rfl⟩ | ⟨rfl, -, rfl⟩
      · simp at hq
      · simp at hq; subst hq; decide
    · intro x hx
      simp only [exGoodApis, List.mem_cons, List.not_mem_nil, or_false] at hx
      rcases hx with rfl | rfl | rfl | rfl | rfl <;> trivial
    · exact fun x hx => exGoodNames x hx

example (fuel : Nat) (hash : Config → Nat) (p : UnsafePolicy) :
    analyzeFunctions fuel hash p (exFnCfg p) false (ApiVec.fromIter exGoodApis) ≠ .panic := by
  refine (function_pass_safe ?_).1
  have h : (ApiVec.fromIter exGoodApis).apis = exGoodApis := by decide +kernel
  rw [h]
  exact exGoodApis_good hash p

end Verif
