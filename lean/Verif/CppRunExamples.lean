import Verif.CppRunProps
import Verif.FrontTotalExamples
import Verif.RsGenExamples

/-!
# C71: whole runs, with code generation
-/

set_option autoImplicit false

namespace Verif

/-- Non-trivial instance of `convertAll_safe`: the header of `exSafeItems`, whatever the policy. -/
example (policy : UnsafePolicy) (force : Bool) (o : CppOptions) (a b : String) (l : List String) :
    convertAll 100 (fun _ => 0) exSig policy exSafeCfg force (.ofEvents exSafeReports) (some exSafeItems) o a b l ≠ .panic := by
  have hparse := exSafe_parsed
  unfold exSafeParse at hparse
  refine convertAll_safe rfl (fun h => ?_) (fun _ h => exSafe_found_of h) (fun _ _ _ h ht hv => exSafe_noself h ht hv)
  rw [h] at hparse
  cases hparse

/-- What bindgen reports of
```cpp
class Bar {};
class A { public: virtual void on(std::unique_ptr<Bar>) = 0; };
```
-/
def exOwnerReports : List BindgenEvent :=
  [.foundMod 0 "root" none, .found 1 "A", .cppName 1 none (some 0), .found 2 "A_on_bindgen_original",
    .cppName 2 (some "on_bindgen_original") (some 0), .virtualness 2 .pureVirtual, .found 3 "Bar",
    .cppName 3 none (some 0)]

/-- What bindgen writes for it. -/
def exOwnerItems : List BindgenItem :=
  [.mod "root"
    [.struct "A" [("_address", false, .path ["u8"] [])] [], .struct "Bar" [("_address", false, .path ["u8"] [])] [],
      .foreignMod [.fn
        { ident := "A_on_bindgen_original", inputs := [.typed "this" (.ptr true (.path ["root", "A"] [])),
            .typed "b" (.path ["root", "std", "unique_ptr"] [.path ["root", "Bar"] []])] }],
      .impl (.path ["A"] []) [.fn "on_bindgen_original" [.call ["A_on_bindgen_original"]]]]]

/-- Whether a run panics. -/
def PassRun.panics {α : Type} : PassRun α → Bool
  | .panic => true
  | _ => false

set_option maxRecDepth 10000 in
/-- **C71 is false** for subclasses: deriving from a class with a virtual method which takes a `std::unique_ptr` crashes
autocxx. -/
theorem override_owner_crashes_false :
    (exConvertAll (exSubCfg [("A", "S")]) exOwnerReports exOwnerItems).panics = true := by
  decide_run

end Verif
