import Verif.ParseBindgen
import Verif.Passes
import Verif.FnPass
import Verif.Abstract
import Verif.NameCheck
import Verif.RemoveIgnored
import Verif.CppGen

/-!
# The conversion as a whole

engine/src/conversion/mod.rs. Rust code generation is not part of this module.
-/

set_option autoImplicit false

namespace Verif

/-- What the passes ask of `ParseCallbackResults` (engine/src/parse_callbacks.rs:110-224). A lookup panics if bindgen
never reported the root namespace; parsing panics then for any item which could be looked up later, so the defaults here
are never used (`lookups_after_parse`). -/
def Callbacks.attrs (cb : Callbacks) : Attrs where
  discardsTemplateParam q := (cb.discardsOf q).getD false
  cppVisibility q := (cb.cppVisibilityOf q).getD .pub

/-- A computation which may panic. -/
def PassRun.ofOption {α : Type} : Option α → PassRun α
  | none => .panic
  | some a => .done a

/-- The `?` operator on the result of a pass. -/
def PassRun.andThen {ε α β : Type} (r : PassRun (Except ε α)) (f : α → PassRun (Except ε β)) : PassRun (Except ε β) :=
  r.bind fun e => match e with
    | .error e => .done (.error e)
    | .ok a => f a

/-- The part of `convert` between POD analysis and the garbage collector:
engine/src/conversion/mod.rs:139-176. -/
def analysisPasses (fuel : Nat) (hash : Config → Nat) (policy : UnsafePolicy) (cfg : Config) (force : Bool)
    (apis : ApiVec TypedefAnalysis PodAnalysis Unit) : PassRun FnApiVec :=
  let apis := replaceHopelessTypedefTargets cfg apis
  let apis := addCasts apis
  let apis := createAllocAndFrees apis
  (analyzeFunctions fuel hash policy cfg force apis).bind fun apis =>
    (PassRun.ofOption (markTypesAbstract apis)).bind fun apis =>
      let apis := decorateTypes apis
      let apis := discardIgnoredFunctions apis
      (PassRun.ofOption (checkNames apis)).bind fun apis => .done (removeIgnored apis)

/-- `convert` up to and including the garbage collector: engine/src/conversion/mod.rs:109-181. The items of the module
bindgen wrote are `none` if it has no content. -/
def convertApisFrom (fuel : Nat) (hash : Config → Nat) (sigOf : RustSig → RustFnSig) (policy : UnsafePolicy) (cfg : Config)
    (force : Bool) (cb : Callbacks) (content : Option (List BindgenItem)) : PassRun (Except ConvertErr FnApiVec) :=
  match content with
  | none => .done (.error .noContent)
  | some items =>
    (PassRun.ofOption (parseBindgenItems hash sigOf cfg cb items)).andThen fun apis =>
      (convertTypedefTargets fuel cfg cb.attrs apis).bind fun apis =>
        ((analyzePodApis fuel hash cfg cb.attrs apis).bind fun r => .done (match r with
          | .error msg => .error (.cpp (.unsafePodType msg))
          | .ok apis => .ok apis)).andThen fun apis =>
          (analysisPasses fuel hash policy cfg force apis).bind fun apis =>
            (PassRun.ofOption (gc hash cfg apis)).bind fun apis => .done (.ok (appendCtypes apis))

/-- `convert` up to and including C++ code generation: engine/src/conversion/mod.rs:109-199. `cxxgenHeader` is the name
the header namer gives. -/
def convertToCpp (fuel : Nat) (hash : Config → Nat) (sigOf : RustSig → RustFnSig) (policy : UnsafePolicy) (cfg : Config)
    (force : Bool) (cb : Callbacks) (content : Option (List BindgenItem)) (o : CppOptions)
    (cxxgenHeader inclusions : String) : PassRun (Except ConvertErr (FnApiVec × Option CppFilePair)) :=
  (convertApisFrom fuel hash sigOf policy cfg force cb content).andThen fun apis =>
    match generateCppCode o hash cfg cxxgenHeader inclusions apis.apis with
    | .panic => .panic
    | .err e => .done (.error (.cpp e))
    | .ok f => .done (.ok (apis, f))

end Verif
