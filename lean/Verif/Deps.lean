import Verif.ApiVec
import Verif.Config

/-!
# What an item depends on, and other questions asked of a fully analysed item
-/

set_option autoImplicit false

namespace Verif

/-- `HasDependencies for Api<FnPrePhase1>`: engine/src/conversion/analysis/deps.rs:24-50. -/
def FnPre1Api.deps : FnPre1Api → List QName
  | .typedef _ _ old a => old.toList ++ a.deps
  | .struct _ _ a => a.fieldDeps ++ a.bases
  | .function _ _ a => a.deps
  | .subclass _ sup => [sup]
  | .rustSubclassFn _ _ d => d.dependencies
  | .rustFn _ d => d
  | _ => []

/-- `HasDependencies for Api<FnPhase>`: engine/src/conversion/analysis/deps.rs:52-97. -/
def FnApi.deps : FnApi → List QName
  | .typedef _ _ old a => old.toList ++ a.deps
  | .struct _ _ a =>
    if a.pod.kind = .pod then a.pod.fieldDeps ++ a.pod.bases ++ a.constructorAndAllocatorDeps
    else a.constructorAndAllocatorDeps
  | .function _ _ a => a.deps
  | .subclass _ sup => [sup]
  | .rustSubclassFn _ _ d => d.dependencies
  | .rustFn _ d => d
  | _ => []

/-- `Api::valid_types`: engine/src/conversion/api.rs:539-551. -/
def Api.validTypes {T S F : Type} : Api T S F → List QName
  | .subclass n _ => [n.name, ⟨[], n.holder⟩, n.cppPeer]
  | a => [a.name]

/-- `Api<FnPhase>::name_for_allowlist`: engine/src/conversion/analysis/fun/mod.rs:2222-2248. -/
def FnApi.nameForAllowlist (a : FnApi) : QName :=
  match a with
  | .function n f an =>
    match an.kind with
    | .method _ implFor => implFor
    | .traitMethod _ implFor _ => implFor
    | .function => ⟨n.name.ns, f.ident⟩
  | .rustSubclassFn _ sub _ => sub.name
  | .ignoredItem n _ (some ctx) =>
    match ctx with
    | .method selfTy _ => ⟨n.name.ns, selfTy⟩
    | .item id => ⟨n.name.ns, id⟩
    | .sanitizedItem _ => n.name
  | a => a.name

/-- `Api<FnPhase>::needs_cpp_codegen`: engine/src/conversion/analysis/fun/mod.rs:2255-2281. -/
def FnApi.needsCppCodegen (a : FnApi) : Bool :=
  match a with
  | .function _ _ an => an.cppWrapper.isSome && an.ignoreReason.isNone && an.externallyCallable
  | .stringConstructor _ | .concreteType .. | .ctype .. | .rustSubclassFn .. | .subclass .. => true
  | .struct _ _ an => an.pod.kind = .pod
  | _ => false

/-- `Api<FnPhase>::cxxbridge_name`: engine/src/conversion/analysis/fun/mod.rs:2283-2292. -/
def FnApi.cxxbridgeName (a : FnApi) : Option Ident :=
  match a with
  | .function _ _ an => some an.cxxbridgeName
  | .stringConstructor _ | .const .. | .ignoredItem .. | .rustSubclassFn .. => none
  | a => some a.name.name

/-- `HasFieldsAndBases for Api<FnPrePhase1>`: engine/src/conversion/analysis/fun/mod.rs:2324-2343. -/
def FnPre1Api.fieldAndBaseDeps : FnPre1Api → List QName
  | .struct _ _ a => a.fieldDefinitionDeps ++ a.bases
  | _ => []

/-- `HasFieldsAndBases for Api<FnPrePhase2>`: engine/src/conversion/analysis/fun/mod.rs:2345-2368. -/
def FnPre2Api.fieldAndBaseDeps : FnPre2Api → List QName
  | .struct _ _ a => a.pod.fieldDefinitionDeps ++ a.pod.bases
  | _ => []

end Verif
