import Verif.RsSigExamples
import Verif.RsVisibleProps

/-!
# Functions under their promised names: whole runs
-/

set_option autoImplicit false

namespace Verif

/-- A function of an output module, or the function of the bridge which is brought there. -/
def OutDecl.seen : OutDecl → Option (List String × String)
  | .fn f => some ([], f.name)
  | .useBridge path al => some (path, al.getD "")
  | _ => none

/-- The functions in the module of a path. -/
def RsFile.seenAt (f : RsFile) (p : List String) : List (List String × String) :=
  ((followMods f.output p).getD []).filterMap fun
    | .item i => i.seen
    | _ => none

/-- What bindgen reports about
```
void g(int c);
namespace n { void g(int c); }
```
-/
def exSameReports : List BindgenEvent :=
  [.foundMod 0 "root" none, .foundMod 1 "n" (some 0), .found 5 "g", .cppName 5 none (some 0), .found 6 "g",
    .cppName 6 none (some 1)]

/-- What bindgen writes for it. -/
def exSameItems : List BindgenItem :=
  [.mod "root" [.foreignMod [.fn { ident := "g", inputs := [.typed "c" exCInt] }],
    .mod "n" [.foreignMod [.fn { ident := "g", inputs := [.typed "c" exCInt] }]]]]

set_option maxRecDepth 10000 in
set_option synthInstance.maxSize 1024 in
/-- Only one of two functions of the same name has that name in the bridge; both have it in their modules. -/
theorem exSame_run :
    (exConvertAll (exRunCfg ["g", "n::g"] []) exSameReports exSameItems).rust.map
      (fun f => (f.seenAt [], f.seenAt ["n"], f.externC.filterMap BridgeDecl.declares)) = some
      ([(["cxxbridge", "g_autocxx1"], "g")], [(["super", "cxxbridge", "g"], "")], ["g", "g_autocxx1", "c_int"]) := by
  decide_run

/-- Non-trivial instance of `function_visible`: a run whose functions are renamed. -/
example : ∃ out f r, Nonempty (ConvertStages 100 (fun _ => 0) exSig .allFunctionsSafe (exRunCfg ["g", "n::g"] []) false
      (.ofEvents exSameReports) exSameItems out) ∧
    generateRsCode (fun _ => 0) .allFunctionsSafe (exRunCfg ["g", "n::g"] []) ["input.h"] r out.apis = some f ∧
    f.seenAt [] = [(["cxxbridge", "g_autocxx1"], "g")] := by
  obtain ⟨f, hf, e⟩ := Option.map_eq_some_iff.1 exSame_run
  obtain ⟨c, hc⟩ := PassRun.rust_some hf
  obtain ⟨out, hs, -, hr⟩ := (convertAll_ok_iff ..).1 hc
  exact ⟨out, f, _, hs, hr, congrArg Prod.fst e⟩

end Verif
