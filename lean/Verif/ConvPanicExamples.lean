import Verif.ConvAgainProps
import Verif.RsGenExamples

/-!
# Runs which crash
-/

set_option autoImplicit false

namespace Verif

/-- Whether a run ended in a panic. -/
def PassRun.crashed {α : Type} : PassRun α → Bool
  | .panic => true
  | _ => false

/-- What bindgen reports about
```
class Pin { public: int x; };
template <typename T> class Foo;
void g(Foo<Pin> c);
```
-/
def exPinReports : List BindgenEvent :=
  [.foundMod 0 "root" none, .found 1 "Pin", .cppName 1 none (some 0), .found 5 "g_bindgen_original", .cppName 5 none (some 0)]

/-- What bindgen writes for it, for a function which takes the type `t`. -/
def exPinItems (t : Ty) : List BindgenItem :=
  [.mod "root" [.struct "Pin" [("x", true, exCInt)] [],
    .foreignMod [.fn { ident := "g_bindgen_original", inputs := [.typed "c" t] }]]]

set_option maxRecDepth 10000 in
/-- **C71 is false**: a class of C++ called `Pin` is taken for Rust's `Pin` when the name of an instantiation is made up
(engine/src/conversion/codegen_cpp/type_to_cpp.rs:80-90), and the argument of that `Pin` is looked for in vain. -/
theorem pin_class_panics_false :
    (exConvertAll (exRunCfg ["g"] []) exPinReports
      (exPinItems (.path ["root", "Foo"] [.path ["root", "Pin"] []]))).crashed = true := by
  decide_run

set_option maxRecDepth 10000 in
/-- The same run with another argument ends well. -/
theorem pin_class_witness :
    ((exConvertAll (exRunCfg ["g"] []) exPinReports
      (exPinItems (.path ["root", "Foo"] [exCInt]))).rust.map fun _ => ()) = some () := by
  decide_run

/-- `Foo<int*>`, as bindgen writes it. -/
def exGoodTemplate : Ty := .path ["root", "Foo"] [.ptr true (.path ["root", "Bar"] [])]

theorem exGoodTemplate_good : GoodTy exGoodTemplate := by
  have g : ∀ (s : String), isIdentText s = true → leadsWell s.toList = true → GoodQ ⟨[], s⟩ := by
    intro s h1 h2 x hx
    simp [QName.segs] at hx
    exact hx ▸ ⟨h1, h2⟩
  refine .path (q := ⟨[], "Foo"⟩) (by decide) (g _ (by decide) (by decide)) (by simp) ?_
  intro a ha
  simp only [List.mem_singleton] at ha
  subst ha
  refine .ptr (.path (q := ⟨[], "Bar"⟩) (by decide) (g _ (by decide) (by decide)) ?_ (by simp))
  intro h
  exact absurd (isPin_name h) (by decide)

/-- The hypotheses of `convert_fine` can be met: converting this type makes up a name, and does not panic. -/
example : Fine GoodConv (convertType {} [] 3 .outerType [] exGoodTemplate) :=
  convert_fine ⟨fun _ _ h => by simp [AMap.get?] at h, fun _ _ h => by simp [AMap.get?] at h⟩ (by simp) 3 _ _ _
    (by intro e he; cases he) exGoodTemplate_good

/-- Asking for this type again gives what it gave at first. -/
example : ∃ q, (convertType {} [] 3 .outerType [] exGoodTemplate).1 = [("Foo<Bar*>", q)] ∧
    (convertType {} [] 3 .outerType [("Foo<Bar*>", q)] exGoodTemplate).1 = [("Foo<Bar*>", q)] := by
  refine ⟨⟨[], "Foo_Bar_AutocxxConcrete"⟩, ?_, ?_⟩
  · decide_known
  · decide_known

end Verif
