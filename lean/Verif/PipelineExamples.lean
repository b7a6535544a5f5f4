import Verif.PipelineFnProps
import Verif.DecideRun

/-!
# C52, C04, C06: whole runs of the conversion

What bindgen reports and writes for a few headers, and what becomes of it. Each run is evaluated by the kernel.
-/

set_option autoImplicit false

namespace Verif

/-- The items delivered by a run which ends well. -/
def PassRun.items : PassRun (Except ConvertErr FnApiVec) → Option (List FnApi)
  | .done (.ok a) => some a.apis
  | _ => none

theorem PassRun.items_some {r : PassRun (Except ConvertErr FnApiVec)} {l : List FnApi} (h : r.items = some l) :
    ∃ out, r = .done (.ok out) ∧ out.apis = l := by
  unfold PassRun.items at h
  split at h
  · exact ⟨_, rfl, Option.some.inj h⟩
  · cases h

/-- What became of an item, and its name. -/
def FnApi.brief (a : FnApi) : String × QName :=
  (match a with
    | .function .. => "function"
    | .struct .. => "struct"
    | .ctype .. => "C type"
    | .ignoredItem .. => "marker"
    | _ => "other", a.name)

theorem PassRun.items_brief {r : PassRun (Except ConvertErr FnApiVec)} {l : List (String × QName)}
    (h : r.items.map (List.map FnApi.brief) = some l) :
    ∃ out, r = .done (.ok out) ∧ out.apis.map FnApi.brief = l := by
  obtain ⟨m, hm, e⟩ := Option.map_eq_some_iff.1 h
  obtain ⟨out, hr, rfl⟩ := items_some hm
  exact ⟨out, hr, e⟩

/-- Nothing is known of signatures in `extern_rust_function`, which these runs don't use. -/
def exSig (_ : RustSig) : RustFnSig := ⟨[], none⟩

/-- The settings of these runs: the names in `generate!`, and those in `generate_pod!`. -/
def exRunCfg (l pods : List String) : Config :=
  { allowlist := .specific (l.map .item), podRequests := pods, excludeUtilities := true }

/-- A run. -/
def exConvert (cfg : Config) (cb : List BindgenEvent) (items : List BindgenItem) : PassRun (Except ConvertErr FnApiVec) :=
  convertApisFrom 100 (fun _ => 0) exSig .allFunctionsSafe cfg false (.ofEvents cb) (some items)

def exCInt : Ty := .path ["root", "std", "os", "raw", "c_int"] []

/-! ## A run in which all goes well -/

/-- What bindgen reports of
```cpp
struct P { int x; };
class C { public: int f(P p); };
struct Unused { int y; };
void g(C& c);
```
-/
def exGoodReports : List BindgenEvent :=
  [.foundMod 0 "root" none, .found 1 "P", .cppName 1 none (some 0), .found 2 "C", .cppName 2 none (some 0),
    .found 3 "C_f_bindgen_original", .cppName 3 (some "f_bindgen_original") (some 0), .found 4 "Unused",
    .cppName 4 none (some 0), .found 5 "g_bindgen_original", .cppName 5 none (some 0)]

/-- What bindgen writes for it. -/
def exGoodItems : List BindgenItem :=
  [.mod "root"
    [.struct "P" [("x", true, exCInt)] [],
      .struct "C" [("_address", false, .path ["u8"] [])] [],
      .foreignMod [.fn
        { ident := "C_f_bindgen_original"
          inputs := [.typed "this" (.ptr true (.path ["root", "C"] [])), .typed "p" (.path ["root", "P"] [])]
          output := some exCInt }],
      .impl (.path ["C"] []) [.fn "f_bindgen_original" [.call ["C_f_bindgen_original"]]],
      .struct "Unused" [("y", true, exCInt)] [],
      .foreignMod [.fn
        { ident := "g_bindgen_original", inputs := [.typed "c" (.ref true none (.path ["root", "C"] []))] }]]]

set_option maxRecDepth 10000 in
/-- Everything asked for is delivered, with the special members of the classes and the C type in use. What nobody asked
for is not. -/
theorem exGood_delivers :
    (exConvert (exRunCfg ["P", "C", "g"] ["P"]) exGoodReports exGoodItems).items.map (List.map FnApi.brief) = some
      [("function", ⟨[], "P_autocxx_alloc_autocxx_wrapper_0x0"⟩), ("function", ⟨[], "P_autocxx_free_autocxx_wrapper_0x0"⟩),
        ("struct", ⟨[], "P"⟩),
        ("function", ⟨[], "C_autocxx_alloc_autocxx_wrapper_0x0"⟩), ("function", ⟨[], "C_autocxx_free_autocxx_wrapper_0x0"⟩),
        ("struct", ⟨[], "C"⟩), ("function", ⟨[], "f"⟩), ("function", ⟨[], "g"⟩),
        ("function", ⟨[], "new_autocxx_autocxx_wrapper_0x0"⟩),
        ("function", ⟨[], "new_synthetic_move_ctor_0x0_autocxx_wrapper_0x0"⟩),
        ("function", ⟨[], "new_synthetic_const_copy_ctor_0x0_autocxx_wrapper_0x0"⟩),
        ("function", ⟨[], "P_synthetic_destructor_0x0_autocxx_wrapper_0x0"⟩),
        ("function", ⟨[], "C_new_autocxx_autocxx_wrapper_0x0"⟩),
        ("function", ⟨[], "C_new_synthetic_move_ctor_0x0_autocxx_wrapper_0x0"⟩),
        ("function", ⟨[], "C_new_synthetic_const_copy_ctor_0x0_autocxx_wrapper_0x0"⟩),
        ("function", ⟨[], "C_synthetic_destructor_0x0_autocxx_wrapper_0x0"⟩), ("C type", ⟨[], "c_int"⟩)] := by
  decide_run

/-- Non-trivial instance of `convert_delivers` and of the theorems about `ConvertStages`. -/
example : ∃ out l, Delivered (fun _ => 0) (exRunCfg ["P", "C", "g"] ["P"]) l ∧ out.apis.length = 17 ∧
    Nonempty (ConvertStages 100 (fun _ => 0) exSig .allFunctionsSafe (exRunCfg ["P", "C", "g"] ["P"]) false
      (.ofEvents exGoodReports) exGoodItems out) := by
  obtain ⟨out, hr, e⟩ := PassRun.items_brief exGood_delivers
  obtain ⟨-, l, hl, -⟩ := convert_delivers hr
  refine ⟨out, l, hl, ?_, (convert_ok_iff ..).1 hr⟩
  have := congrArg List.length e
  rwa [List.length_map] at this

/-! ## A function which vanishes -/

/-- What bindgen reports of
```cpp
class Outer { struct Inner { int x; }; public: using Alias = Inner; };
Outer::Alias f();
```
-/
def exGoneReports : List BindgenEvent :=
  [.foundMod 0 "root" none, .found 1 "Outer", .cppName 1 none (some 0), .found 2 "Outer_Inner",
    .cppName 2 (some "Outer::Inner") (some 0), .visibility 2 .priv, .found 3 "f_bindgen_original",
    .cppName 3 none (some 0)]

/-- What bindgen writes for it. -/
def exGoneItems : List BindgenItem :=
  [.mod "root"
    [.struct "Outer" [("_address", false, .path ["u8"] [])] [],
      .struct "Outer_Inner" [("x", true, .path ["i32"] [])] [],
      .foreignMod [.fn { ident := "f_bindgen_original", output := some (.path ["root", "Outer_Inner"] []) }]]]

set_option maxRecDepth 10000 in
/-- **C04 is false (a whole run)**: the user asks for the function `f`, which is there; the conversion succeeds and
delivers nothing at all, neither the function nor anything which says why not. -/
theorem requested_function_vanishes_false :
    (exConvert (exRunCfg ["f"] []) exGoneReports exGoneItems).items.map (List.map FnApi.brief) = some [] := by
  decide_run

/-! ## A method which has the name of a class -/

/-- What bindgen reports of
```cpp
class C { public: int Foo(); };
struct Foo { int y; };
```
-/
def exNamesakeReports : List BindgenEvent :=
  [.foundMod 0 "root" none, .found 1 "C", .cppName 1 none (some 0), .found 2 "C_Foo_bindgen_original",
    .cppName 2 (some "Foo_bindgen_original") (some 0), .found 3 "Foo", .cppName 3 none (some 0)]

/-- What bindgen writes for it. -/
def exNamesakeItems : List BindgenItem :=
  [.mod "root"
    [.struct "C" [("_address", false, .path ["u8"] [])] [],
      .foreignMod [.fn
        { ident := "C_Foo_bindgen_original"
          inputs := [.typed "this" (.ptr true (.path ["root", "C"] []))]
          output := some exCInt }],
      .impl (.path ["C"] []) [.fn "Foo_bindgen_original" [.call ["C_Foo_bindgen_original"]]],
      .struct "Foo" [("y", true, exCInt)] []]]

set_option maxRecDepth 10000 in
/-- **C04 is false (a whole run)**: the user asks for the class `C`. Its method `Foo` has the name of another class, and
both are replaced by one marker, which is on no allowlist: no trace is left of the method. -/
theorem method_named_as_class_vanishes_false :
    (exConvert (exRunCfg ["C"] []) exNamesakeReports exNamesakeItems).items.map (List.map FnApi.brief) = some
      [("function", ⟨[], "C_autocxx_alloc_autocxx_wrapper_0x0"⟩), ("function", ⟨[], "C_autocxx_free_autocxx_wrapper_0x0"⟩),
        ("struct", ⟨[], "C"⟩), ("function", ⟨[], "new_autocxx_autocxx_wrapper_0x0"⟩),
        ("function", ⟨[], "new_synthetic_move_ctor_0x0_autocxx_wrapper_0x0"⟩),
        ("function", ⟨[], "new_synthetic_const_copy_ctor_0x0_autocxx_wrapper_0x0"⟩),
        ("function", ⟨[], "C_synthetic_destructor_0x0_autocxx_wrapper_0x0"⟩)] := by
  decide_run

set_option maxRecDepth 10000 in
/-- **C50, C52**: the user asks for the class `Foo` only, which is there. It is given up because a class nobody asked for
has a method of that name: all which is delivered is the marker. -/
theorem unrequested_method_spoils_class_false :
    (exConvert (exRunCfg ["Foo"] []) exNamesakeReports exNamesakeItems).items = some
      [.ignoredItem ⟨⟨[], "Foo"⟩, none⟩ .duplicateItemsFoundInParsing (some (.item "Foo"))] := by
  decide_run

end Verif
