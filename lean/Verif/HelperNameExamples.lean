import Verif.HelperNameProps
import Verif.RsGenExamples

/-!
# C45, C14: a class whose name ends in an underscore
-/

set_option autoImplicit false

namespace Verif

/-- What bindgen reports of
```cpp
struct name { int x; };
```
-/
def exTailReports (name : String) : List BindgenEvent :=
  [.foundMod 0 "root" none, .found 1 name, .cppName 1 none (some 0)]

/-- What bindgen writes for it. -/
def exTailItems (name : String) : List BindgenItem := [.mod "root" [.struct name [("x", true, exCInt)] []]]

/-- The traits whose methods are delivered for a class, and the markers. -/
def exTailTraits (l : List FnApi) : List TraitMethodKind × Nat :=
  (l.filterMap fun x => match x with
    | .function _ _ a => (match a.kind with
      | .traitMethod k _ _ => some k
      | _ => none)
    | _ => none,
   (l.filter fun x => match x with
    | .ignoredItem .. => true
    | _ => false).length)

set_option maxRecDepth 10000 in
set_option synthInstance.maxSize 1024 in
/-- A class with an ordinary name: there are functions to get and give back memory, and it can be moved, copied and
destroyed. -/
theorem plain_helpers_witness :
    (exConvert (exRunCfg ["foo"] []) (exTailReports "foo") (exTailItems "foo")).items.map exTailTraits =
      some ([.alloc, .dealloc, .moveConstructor, .copyConstructor, .destructor], 0) := by
  decide_run

set_option maxRecDepth 10000 in
set_option synthInstance.maxSize 1024 in
/-- **C45 is false**: of a class called `foo_` there is no function to get or give back memory and, what is worse, no
destructor, though there are constructors. -/
theorem underscore_helpers_false :
    (exConvert (exRunCfg ["foo_"] []) (exTailReports "foo_") (exTailItems "foo_")).items.map exTailTraits =
      some ([.moveConstructor, .copyConstructor], 1) := by
  decide_run

/-- The names are what the theorems are about. -/
example : EndsInUnderscore "foo_" ∧ ¬ EndsInUnderscore "foo" := by
  refine ⟨⟨"foo", by decide⟩, ?_⟩
  rintro ⟨t, h⟩
  have := congrArg (fun s : String => s.toList.getLast?) h
  simp at this

end Verif
