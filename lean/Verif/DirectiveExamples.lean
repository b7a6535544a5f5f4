import Verif.ExternFunExamples
import Verif.RsGenExamples

/-!
# C50: what is asked for by a name which is not that of the item bindgen writes
-/

set_option autoImplicit false

namespace Verif

set_option maxRecDepth 10000 in
set_option synthInstance.maxSize 1024 in
/-- **C50 is false**: the header of `exGoodItems` has a class `C` with a method `f`, and nothing called `C_f`. Asking for
`C_f` is accepted, because bindgen calls the method so, and nothing is generated. -/
theorem method_directive_false :
    (exConvert (exRunCfg ["C_f"] []) exGoodReports exGoodItems).items.map (List.map FnApi.brief) = some [] := by
  decide_run

/-- What bindgen reports of
```cpp
struct type { int x; };
```
-/
def exKeywordReports : List BindgenEvent :=
  [.foundMod 0 "root" none, .found 1 "type_", .cppName 1 (some "type") (some 0)]

/-- What bindgen writes for it. -/
def exKeywordItems : List BindgenItem := [.mod "root" [.struct "type_" [("x", true, exCInt)] []]]

set_option maxRecDepth 10000 in
set_option synthInstance.maxSize 1024 in
/-- **C50 is false**: the class `type` is there, and is asked for by its name, but the request is refused: bindgen calls it
`type_`, since Rust has a keyword of that name. By this other name it is found. -/
theorem keyword_directive_false :
    (exConvert (exRunCfg ["type"] []) exKeywordReports exKeywordItems).failure =
      some (.cpp (.didNotGenerateAnything "type")) ∧
    (exConvert (exRunCfg ["type_"] []) exKeywordReports exKeywordItems).failure = none := by
  decide_run

/-- What bindgen reports of a class `C` with a virtual method, and a class `SHolder`. -/
def exHolderReports : List BindgenEvent := exSubReports ++ [.found 10 "SHolder", .cppName 10 none (some 0)]

/-- What bindgen writes for it. -/
def exHolderItems : List BindgenItem :=
  [.mod "root"
    [.struct "C" [("_address", false, .path ["u8"] [])] [],
      .foreignMod [.fn
        { ident := "C_f_bindgen_original"
          inputs := [.typed "this" (.ptr true (.path ["root", "C"] []))]
          output := some exCInt }],
      .impl (.path ["C"] []) [.fn "f_bindgen_original" [.call ["C_f_bindgen_original"]]],
      .struct "SHolder" [("x", true, exCInt)] []]]

set_option maxRecDepth 10000 in
set_option synthInstance.maxSize 1024 in
/-- **C50 is false**: the class `SHolder` is there, and is asked for by its name. But it has the name which is made up for
a subclass `S` in Rust, and is passed over; the request is refused. -/
theorem holder_directive_false :
    (exConvert { exSubCfg [("C", "S")] with allowlist := .specific [.item "SHolder"] } exHolderReports exHolderItems).failure =
      some (.cpp (.didNotGenerateAnything "SHolder")) := by
  decide_run

end Verif
