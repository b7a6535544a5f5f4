import Verif.Policy
import Verif.Names
import Verif.Dec
import Verif.NsTree
import Verif.RsBody

/-!
# The Rust functions which call the bridge

engine/src/conversion/codegen_rs/function_wrapper_rs.rs, engine/src/conversion/codegen_rs/lifetime.rs,
engine/src/conversion/codegen_rs/unqualify.rs and engine/src/conversion/codegen_rs/fun_codegen.rs.

Documentation and visibility are left out: they are copied. Code is an expression tree rather than tokens; what each
form stands for is said where it is introduced. The `::` at the start of a path is left out. A lifetime among the
arguments of a path is `Ty.other`.
-/

set_option autoImplicit false

namespace Verif

/-! ## Types -/

/-- The bounds of the `impl` types which are generated. -/
inductive ImplBound where
  /-- `ToCppString` -/
  | toCppString
  /-- `autocxx::ValueParam<T>` -/
  | valueParam (t : Ty)
  /-- `autocxx::RValueParam<T>` -/
  | rvalueParam (t : Ty)
  /-- `autocxx::moveit::new::New<Output = T>` -/
  | newOf (t : Ty)
deriving DecidableEq

/-- The types in signatures: those `Ty` has, and `impl B + 'x + …`. -/
inductive RTy where
  | plain (t : Ty)
  | impl (bound : ImplBound) (lifetimes : List String)
deriving DecidableEq

/-- A parameter in a signature. One called `self` in a wrapper is a `syn::FnArg::Receiver`, any other and any in the
bridge is a `syn::FnArg::Typed`. -/
structure SigParam where
  receiver : Bool := false
  mutable : Bool := false
  name : Ident
  ty : RTy
deriving DecidableEq

/-! ## Lifetimes -/

/-- `add_lifetime_to_reference`: engine/src/conversion/codegen_rs/lifetime.rs:218-220, applied to the arguments of `Pin`:
lifetime.rs:204-212. `none` are the panics. -/
def addLifetimeToPinArgs : List Ty → Option (List Ty)
  | .ref m _ e :: r => some (.ref m (some "'a") e :: r)
  | _ => none

/-- The result of `add_lifetime_to_pinned_reference`, which changes its argument and can panic. -/
inductive PinLifetime where
  | ok (args : List Ty)
  | wasNotPin
  | panic

/-- `add_lifetime_to_pinned_reference`: engine/src/conversion/codegen_rs/lifetime.rs:187-216. The arguments are the
segments and the arguments of the last one; no other segment has any. The `zip` stops at the end of a shorter path, and
a longer one has no arguments where they are looked for. -/
def addLifetimeToPinned (segs : List String) (args : List Ty) : PinLifetime :=
  match segs with
  | [] => .ok args
  | a :: r =>
    if a ≠ "std" ∧ a ≠ "core" then .wasNotPin
    else
      match r with
      | [] => .ok args
      | b :: r =>
        if b ≠ "pin" then .wasNotPin
        else
          match r with
          | [] => .ok args
          | c :: r =>
            if c ≠ "Pin" then .wasNotPin
            else if r ≠ [] then .panic
            else
              match addLifetimeToPinArgs args with
              | some args => .ok args
              | none => .panic

/-- What is done to the type of a parameter: engine/src/conversion/codegen_rs/lifetime.rs:124-132,222-225. `none` is a
panic. -/
def addLifetimeToParam : RTy → Option RTy
  | .plain (.path segs args) =>
    match addLifetimeToPinned segs args with
    | .ok args => some (.plain (.path segs args))
    | .wasNotPin => some (.plain (.path segs args))
    | .panic => none
  | .plain (.ref m _ e) => some (.plain (.ref m (some "'a") e))
  | .impl b l => some (.impl b (l ++ ["'a"]))
  | t => some t

/-- What is done to the type of the result: engine/src/conversion/codegen_rs/lifetime.rs:87-112. The outer `none` is a
panic. -/
def newReturnType : Option RTy → Option (Option RTy)
  | some (.plain (.ref m _ e)) => some (some (.plain (.ref m (some "'a") e)))
  | some (.plain (.path segs args)) =>
    match addLifetimeToPinned segs args with
    | .ok args => some (some (.plain (.path segs args)))
    | .wasNotPin => some none
    | .panic => none
  | some (.impl b l) => some (some (.impl b (l ++ ["'a"])))
  | _ => some none

/-- One parameter of `reference_parameter_is_non_pod_reference`: engine/src/conversion/codegen_rs/lifetime.rs:144-156.
`none` is the panic of `from_type_path`. -/
def isNonPodRef (nonPod : List QName) (p : SigParam) : Option Bool :=
  if p.receiver then some false
  else
    match p.ty with
    | .plain (.ref _ _ (.path segs _)) => (QName.ofTypePath segs).map fun q => q ∈ nonPod
    | _ => some false

/-- `reference_parameter_is_non_pod_reference`: engine/src/conversion/codegen_rs/lifetime.rs:140-157. -/
def hasNonPodRef (nonPod : List QName) : List SigParam → Option Bool
  | [] => some false
  | p :: l =>
    match isNonPodRef nonPod p with
    | some true => some true
    | some false => hasNonPodRef nonPod l
    | none => none

/-- `return_type_is_pod_or_known_type_reference`: engine/src/conversion/codegen_rs/lifetime.rs:159-176. -/
def returnsPodRef (nonPod : List QName) : Option RTy → Option Bool
  | some (.plain (.ref _ _ (.path segs _))) => (QName.ofTypePath segs).map fun q => q ∉ nonPod
  | _ => some false

/-- `return_type_is_impl`: engine/src/conversion/codegen_rs/lifetime.rs:178-180. -/
def returnsImpl : Option RTy → Bool
  | some (.impl ..) => true
  | _ => false

/-- The types of a signature, and whether there is `<'a>` before its parameters. -/
structure Sig where
  generic : Bool := false
  params : List SigParam
  ret : Option RTy
deriving DecidableEq

/-- The change to the parameters: engine/src/conversion/codegen_rs/lifetime.rs:120-133. -/
def addLifetimes (params : List SigParam) : Option (List SigParam) :=
  params.mapM fun p => (addLifetimeToParam p.ty).map fun t => { p with ty := t }

/-- `has_mutable_receiver`: engine/src/conversion/codegen_rs/lifetime.rs:48-51. -/
def hasMutableReceiver (details : List ArgumentAnalysis) : Bool :=
  details.any fun pd =>
    (match pd.selfType with
      | some (_, .mutable) => true
      | _ => false) && !pd.isPlacementReturnDestination

/-- `any_param_is_reference`: engine/src/conversion/codegen_rs/lifetime.rs:53-59. -/
def anyParamIsReference (details : List ArgumentAnalysis) : Bool :=
  details.any fun pd => pd.hasLifetime || pd.conversion.rustConversion = .fromValueParamToPtr

/-- `any_param_is_cppref`: engine/src/conversion/codegen_rs/lifetime.rs:61-66. -/
def anyParamIsCppref (details : List ArgumentAnalysis) : Bool :=
  details.any fun pd => pd.conversion.rustConversion = .fromReferenceWrapperToPointer

/-- `return_type_is_cppref`: engine/src/conversion/codegen_rs/lifetime.rs:68-74. -/
def returnsCppref : Option TypeConversionPolicy → Bool
  | some c => c.rustConversion = .fromPointerToReferenceWrapper
  | none => false

/-- The rest of `add_explicit_lifetime_if_necessary` once it is decided that a lifetime is needed:
engine/src/conversion/codegen_rs/lifetime.rs:87-137. -/
def attachLifetime (params : List SigParam) (ret : Option RTy) (cppref : Bool) : Option Sig :=
  match newReturnType ret with
  | none => none
  | some none => some ⟨cppref, params, ret⟩
  | some (some r) => (addLifetimes params).map fun ps => ⟨true, ps, some r⟩

/-- `add_explicit_lifetime_if_necessary`: engine/src/conversion/codegen_rs/lifetime.rs:37-138. `none` is a panic. -/
def addExplicitLifetime (details : List ArgumentAnalysis) (params : List SigParam) (ret : Option RTy)
    (nonPod : List QName) (retConversion : Option TypeConversionPolicy) : Option Sig :=
  match hasNonPodRef nonPod params, returnsPodRef nonPod ret with
  | some nonPodRef, some podRet =>
    if hasMutableReceiver details || (nonPodRef && podRet) || (returnsImpl ret && anyParamIsReference details) ||
        returnsCppref retConversion || anyParamIsCppref details then
      attachLifetime params ret (returnsCppref retConversion || anyParamIsCppref details)
    else some ⟨false, params, ret⟩
  | _, _ => none

/-! ## Code -/

/-- The Rust code which is generated for the body of a function: expressions, and statements made of them. -/
inductive Rs where
  /-- `x` -/
  | var (x : Ident)
  /-- `e.into_cpp()` -/
  | intoCpp (e : Rs)
  /-- `Box::new(h(e))` -/
  | boxHolder (h : Ident) (e : Rs)
  /-- `e.get_unchecked_mut().as_mut_ptr()` -/
  | uninitPtr (e : Rs)
  /-- `{ let r: &mut _ = ::core::pin::Pin::into_inner_unchecked(e.as_mut()); r }` -/
  | moveRefInner (e : Rs)
  /-- `x.get_ptr()` -/
  | getPtr (x : Ident)
  /-- `autocxx::w::from_ptr(e)` -/
  | fromPtr (w : Ident) (e : Rs)
  /-- `e.as_mut_ptr()` or `e.as_ptr()` -/
  | asPtr (mutable : Bool) (e : Rs)
  /-- `cxxbridge::f(args)` -/
  | call (f : Ident) (args : List Rs)
  /-- `autocxx::moveit::new::by_raw(move |x| { body })` -/
  | byRaw (x : Ident) (body : List Rs)
  /-- `unsafe { body }` -/
  | unsafeBlock (body : List Rs)
  /-- `let mut x = autocxx::RValueParamHandler::default();` or the same for `ValueParamHandler` -/
  | letHandler (x : Ident) (rvalue : Bool)
  /-- `let mut x = unsafe { ::core::pin::Pin::new_unchecked(&mut x) };`, or without the `unsafe` -/
  | letPin (x : Ident) (ownUnsafe : Bool)
  /-- `x.as_mut().populate(e);` -/
  | populate (x : Ident) (e : Rs)
  /-- `let x = unsafe { x.get_unchecked_mut().as_mut_ptr() };`, or without the `unsafe` -/
  | letPlace (x : Ident) (ownUnsafe : Bool)

/-- `RustParamConversion`: engine/src/conversion/codegen_rs/function_wrapper_rs.rs:22-32. -/
inductive RustParam where
  | param (ty : RTy) (locals : List (MaybeUnsafe Rs)) (conversion : Rs) (requiresUnsafe : Bool)
  | returnValue (ty : Ty)

/-- What a pointer points to, and whether it may be changed. -/
def ptrParts : Ty → Option (Bool × Ty)
  | .ptr m e => some (m, e)
  | _ => none

/-- The statements for a by-value parameter: engine/src/conversion/codegen_rs/function_wrapper_rs.rs:115-156. -/
def handlerParam (rvalue : Bool) (ty : Ty) (var : Rs) (counter : Nat) : RustParam × Nat :=
  let space := "space" ++ dec counter
  (.param (.impl (if rvalue then .rvalueParam ty else .valueParam ty) [])
    [.normal (.letHandler space rvalue), .binary (.letPin space true) (.letPin space false),
      .needsUnsafe (.populate space var)]
    (.getPtr space) false, counter + 1)

/-- `rust_conversion`: engine/src/conversion/codegen_rs/function_wrapper_rs.rs:35-220. `none` are the panics. -/
def TypeConversionPolicy.rustConvert (p : TypeConversionPolicy) (var : Rs) (counter : Nat) : Option (RustParam × Nat) :=
  match p.rustConversion with
  | .none => some (.param (.plain p.convertedRustType) [] var false, counter)
  | .fromStr => some (.param (.impl .toCppString []) [] (.intoCpp var) false, counter)
  | .toBoxedUpHolder sub =>
    some (.param (.plain (.path ["autocxx", "subclass", "CppSubclassRustPeerHolder"]
      [.path ["super", sub.name.name] []])) [] (.boxHolder sub.holder var) false, counter)
  | .fromPinMaybeUninitToPtr =>
    (ptrParts p.unwrappedType).map fun (_, e) =>
      (.param (.plain (.path ["core", "pin", "Pin"] [.ref true none (.path ["core", "mem", "MaybeUninit"] [e])])) []
        (.uninitPtr var) true, counter)
  | .fromPinMoveRefToPtr =>
    (ptrParts p.unwrappedType).map fun (_, e) =>
      (.param (.plain (.path ["core", "pin", "Pin"] [.path ["autocxx", "moveit", "MoveRef"] [.other "'_", e]])) []
        (.moveRefInner var) true, counter)
  | .fromTypeToPtr =>
    (ptrParts p.unwrappedType).map fun (_, e) => (.param (.plain (.ref true none e)) [] var false, counter)
  | .fromValueParamToPtr => some (handlerParam false p.unwrappedType var counter)
  | .fromRValueParamToPtr => some (handlerParam true p.unwrappedType var counter)
  | .fromPlacementParamToNewReturn => (ptrParts p.unwrappedType).map fun (_, e) => (.returnValue e, counter)
  | .fromPointerToReferenceWrapper =>
    (ptrParts p.unwrappedType).map fun (m, e) =>
      let w := if m then "CppMutLtRef" else "CppLtRef"
      (.param (.plain (.path ["autocxx", w] [.other "'a", e])) [] (.fromPtr w var) false, counter)
  | .fromReferenceWrapperToPointer =>
    (ptrParts p.unwrappedType).map fun (m, e) =>
      (.param (.plain (.path ["autocxx", if m then "CppMutRef" else "CppRef"] [e])) [] (.asPtr m var) false, counter)

/-- A piece of tokens as code. -/
def Frag.toRs : Frag Rs → Rs
  | .plain s => s
  | .block l => .unsafeBlock l

/-- The statements put out, as code. -/
def fragsToRs (l : List (Frag Rs)) : List Rs := l.map Frag.toRs

/-! ## Functions -/

/-- `FnGenerator`: engine/src/conversion/codegen_rs/fun_codegen.rs:225-235. -/
structure FnGen where
  details : List ArgumentAnalysis
  retConversion : Option TypeConversionPolicy
  retType : Option Ty
  bridgeName : Ident
  rustName : Ident
  needed : UnsafetyNeeded
  alwaysUnsafe : Bool
  nonPod : List QName

/-- The local variables of the loop of `common_parts`: engine/src/conversion/codegen_rs/fun_codegen.rs:249-257. -/
structure PartsState where
  params : List SigParam := []
  locals : List (MaybeUnsafe Rs) := []
  args : List Rs := []
  ptrArg : Option Rs := none
  ret : Option RTy
  unsafeConversion : Bool := false
  counter : Nat := 0

/-- What a parameter is called in the wrapper: engine/src/conversion/codegen_rs/fun_codegen.rs:260-264. -/
def wrapperArgName (avoidSelf : Bool) (pd : ArgumentAnalysis) : Ident :=
  if pd.selfType.isSome && !avoidSelf then "self" else pd.name

/-- One turn of the loop of `common_parts`: engine/src/conversion/codegen_rs/fun_codegen.rs:258-296. -/
def partsStep (avoidSelf : Bool) (s : PartsState) (pd : ArgumentAnalysis) : Option PartsState :=
  let name := wrapperArgName avoidSelf pd
  match pd.conversion.rustConvert (.var name) s.counter with
  | none => none
  | some (.param ty locals conversion requiresUnsafe, counter) =>
    some { s with
      args := s.args ++ [conversion]
      locals := s.locals ++ locals
      ptrArg := if pd.isPlacementReturnDestination then some conversion else s.ptrArg
      params := if pd.isPlacementReturnDestination then s.params else
        s.params ++ [⟨name = "self", pd.conversion.rustConversion.requiresMutability, name, ty⟩]
      unsafeConversion := requiresUnsafe || s.unsafeConversion
      counter := counter }
  | some (.returnValue ty, counter) =>
    some { s with
      ptrArg := some (.var pd.name)
      ret := some (.impl (.newOf ty) [])
      args := s.args ++ [.var pd.name]
      counter := counter }

/-- The loop of `common_parts`: engine/src/conversion/codegen_rs/fun_codegen.rs:258-296. -/
def partsLoop (avoidSelf : Bool) : PartsState → List ArgumentAnalysis → Option PartsState
  | s, [] => some s
  | s, pd :: l => (partsStep avoidSelf s pd).bind fun s => partsLoop avoidSelf s l

/-- `reorder_parameters`: engine/src/conversion/codegen_rs/fun_codegen.rs:461-470. `none` is a panic. -/
def reorderParams {α : Type} (params : List α) : List Nat → Option (List α)
  | [] => some []
  | n :: l =>
    match params[n]?, reorderParams params l with
    | some p, some r => some (p :: r)
    | _, _ => none

/-- The call and the type of what it gives, once its result is converted:
engine/src/conversion/codegen_rs/fun_codegen.rs:308-353. `none` are the panics; one statement always makes one piece. -/
def convertedCall (g : FnGen) (call : MaybeUnsafe Rs) (contextUnsafe : Bool) (ret : Option RTy) (counter : Nat) :
    Option (MaybeUnsafe Rs × Option RTy) :=
  match g.retConversion with
  | some c =>
    if c.rustWorkNeeded then
      match fragsToRs (maybeUnsafesToTokens [call] contextUnsafe) with
      | [expr] =>
        match c.rustConvert expr counter with
        | some (.param ty [] conversion requiresUnsafe, _) => some (.maybe conversion requiresUnsafe, some ty)
        | _ => none
      | _ => none
    else some (call, ret)
  | none => some (call, ret)

/-- The statements of the body: engine/src/conversion/codegen_rs/fun_codegen.rs:355-375. What is to be the parameter of
the closure must be a plain variable, else the code cannot be parsed, which is a panic. -/
def bodyStmts (locals : List (MaybeUnsafe Rs)) (call : MaybeUnsafe Rs) : Option Rs → Option (List (MaybeUnsafe Rs))
  | none => some (locals ++ [call])
  | some (.var x) =>
    some [.needsUnsafe (.byRaw x (fragsToRs (maybeUnsafesToTokens
      (locals ++ [.binary (.letPlace x true) (.letPlace x false), call]) true)))]
  | some _ => none

/-- The order of the parameters: engine/src/conversion/codegen_rs/fun_codegen.rs:297-299. -/
def orderParams (params : List SigParam) : Option (List Nat) → Option (List SigParam)
  | some o => reorderParams params o
  | none => some params

/-- `common_parts`: engine/src/conversion/codegen_rs/fun_codegen.rs:238-378. Gives the signature and the body. `none`
are the panics. -/
def commonParts (g : FnGen) (avoidSelf : Bool) (order : Option (List Nat)) (ret : Option RTy) :
    Option (Sig × List Rs) :=
  (partsLoop avoidSelf { ret := ret.or (g.retType.map .plain) } g.details).bind fun s =>
  (orderParams s.params order).bind fun params =>
  (addExplicitLifetime g.details params s.ret g.nonPod g.retConversion).bind fun sig =>
  let contextUnsafe := decide (g.needed = .always) || g.alwaysUnsafe
  let call := MaybeUnsafe.maybe (.call g.bridgeName s.args) (s.unsafeConversion || g.needed = .justBridge)
  (convertedCall g call contextUnsafe sig.ret s.counter).bind fun (call, ret) =>
  (bodyStmts s.locals call s.ptrArg).map fun stmts =>
    ({ sig with ret := ret }, fragsToRs (maybeUnsafesToTokens stmts contextUnsafe))

/-- A function which is generated, outside of the bridge. -/
structure RsFnItem where
  isUnsafe : Bool
  name : Ident
  sig : Sig
  body : List Rs

/-- The function made of the common parts: engine/src/conversion/codegen_rs/fun_codegen.rs:386-398,405-417,428-443,
448-458. -/
def FnGen.item (g : FnGen) (name : Ident) (parts : Sig × List Rs) : RsFnItem :=
  ⟨g.needed.wrapperToken, name, parts.1, parts.2⟩

/-- `generate_method_impl`: engine/src/conversion/codegen_rs/fun_codegen.rs:381-401. `make_ident` panics for what is not
an identifier, which is checked when names are. -/
def FnGen.methodImpl (g : FnGen) (avoidSelf : Bool) (ty : QName) : Option (Ident × RsFnItem) :=
  (commonParts g avoidSelf none none).map fun parts => (ty.name, g.item g.rustName parts)

/-- `TraitImplSignature`: engine/src/conversion/api.rs:106-111. -/
structure TraitKey where
  ty : Ty
  traitSignature : Ty
  isUnsafe : Bool
deriving DecidableEq

/-- `generate_trait_impl`: engine/src/conversion/codegen_rs/fun_codegen.rs:404-419. -/
def FnGen.traitImpl (g : FnGen) (d : TraitMethodDetails) : Option (TraitKey × RsFnItem) :=
  (commonParts g d.avoidSelf d.parameterReordering none).map fun parts =>
    (⟨d.implTy, d.traitSignature, d.traitUnsafe⟩, g.item d.methodName parts)

/-- `generate_constructor_impl`: engine/src/conversion/codegen_rs/fun_codegen.rs:423-444. -/
def FnGen.constructorImpl (g : FnGen) (ty : QName) : Option (Ident × RsFnItem) :=
  (commonParts g true none (some (.impl (.newOf (.path ["Self"] [])) []))).map fun parts =>
    (ty.name, g.item g.rustName parts)

/-- `generate_function_impl`: engine/src/conversion/codegen_rs/fun_codegen.rs:447-459. -/
def FnGen.functionImpl (g : FnGen) : Option RsFnItem :=
  (commonParts g false none none).map fun parts => g.item g.rustName parts

/-! ## The bridge -/

mutual
/-- `unqualify_type`, `unqualify_type_path`: engine/src/conversion/codegen_rs/unqualify.rs:16-37,53-66. `none` is the
panic for an empty path. -/
def unqualify : Ty → Option Ty
  | .path segs args =>
    match segs.getLast? with
    | none => none
    | some s => (unqualifyAll args).map fun args => .path [s] args
  | .ref m l e => (unqualify e).map fun e => .ref m l e
  | .ptr m e => (unqualify e).map fun e => .ptr m e
  | t => some t
/-- `unqualify_punctuated`: engine/src/conversion/codegen_rs/unqualify.rs:39-51. -/
def unqualifyAll : List Ty → Option (List Ty)
  | [] => some []
  | t :: l =>
    match unqualify t, unqualifyAll l with
    | some t, some l => some (t :: l)
    | _, _ => none
end

/-- A type in the bridge. -/
def RTy.unqualify : RTy → Option RTy
  | .plain t => (Verif.unqualify t).map .plain
  | t => some t

/-- `unqualify_params_minisyn`, one parameter: engine/src/conversion/codegen_rs/unqualify.rs:86-92. -/
def SigParam.unqualify (p : SigParam) : Option SigParam := (p.ty.unqualify).map fun t => { p with ty := t }

/-- `unqualify_ret_type`: engine/src/conversion/codegen_rs/unqualify.rs:72-79. -/
def unqualifyRet : Option RTy → Option (Option RTy)
  | none => some none
  | some t => t.unqualify.map some

/-- A function of the bridge: engine/src/conversion/codegen_rs/fun_codegen.rs:208-213. -/
structure BridgeFn where
  namespaceAttr : Option String
  cxxName : Option String
  isUnsafe : Bool
  name : Ident
  sig : Sig

/-- Items in the output modules for a function. -/
inductive FnOutItem where
  | fn (f : RsFnItem)
  /-- `pub use path;` or `pub use path as alias;` -/
  | useBridge (path : List String) (alias : Option Ident)

/-- The fields of `RsCodegenResult` (engine/src/conversion/codegen_rs/mod.rs:1094-1105) which functions fill. -/
structure FnResult where
  externC : List BridgeFn := []
  piece : RsPiece FnOutItem Ident TraitKey RsFnItem := {}

/-- The generator for a function: engine/src/conversion/codegen_rs/fun_codegen.rs:111-125. -/
def FnAnalysis.gen (a : FnAnalysis) (nonPod : List QName) : FnGen where
  details := a.paramDetails
  retConversion := a.retConversion
  retType := a.retType
  bridgeName := a.cxxbridgeName
  rustName := a.rustName
  needed := a.requiresUnsafe
  alwaysUnsafe :=
    match a.kind with
    | .traitMethod _ _ d => d.traitCallIsUnsafe
    | _ => false
  nonPod := nonPod

/-- What is made outside of the bridge: engine/src/conversion/codegen_rs/fun_codegen.rs:138-175. -/
def fnPiece (name : QName) (a : FnAnalysis) (nonPod : List QName) :
    Option (RsPiece FnOutItem Ident TraitKey RsFnItem) :=
  if a.rustWrapperNeeded then
    match a.kind with
    | .method (.constructor _) ty => ((a.gen nonPod).constructorImpl ty).map fun e => { implEntry := some e }
    | .method _ ty => ((a.gen nonPod).methodImpl false ty).map fun e => { implEntry := some e }
    | .traitMethod _ _ d => ((a.gen nonPod).traitImpl d).map fun e => { traitImplEntry := some e }
    | .function => (a.gen nonPod).functionImpl.map fun f => { items := [.fn f] }
  else
    match a.kind with
    | .function =>
      let alias := match a.renameStrategy with
        | .renameInOutputMod n => some n
        | _ => none
      some { items := [.useBridge (cxxUsePath name) alias] }
    | _ => some {}

/-- The attribute with the C++ name: engine/src/conversion/codegen_rs/fun_codegen.rs:177-184. -/
def fnCxxName (a : FnAnalysis) : Option String :=
  match a.cppCallName with
  | some n => if n ≠ a.cxxbridgeName ∧ a.cppWrapper.isNone then some n else none
  | none => none

/-- The attribute with the namespace: engine/src/conversion/codegen_rs/fun_codegen.rs:198-207. -/
def fnNamespace (name : QName) (a : FnAnalysis) : Option String :=
  if name.ns = [] ∨ a.cppWrapper.isSome then none else some ("::".intercalate name.ns)

/-- The parameters of the bridge before any change: engine/src/conversion/codegen_rs/fun_codegen.rs:97. -/
def bridgeSigParams (a : FnAnalysis) : Option (List SigParam) :=
  a.params.mapM fun p =>
    match p with
    | .typed n t => some { name := n, ty := .plain t }
    | .receiver _ => none

/-- The entry in the bridge: engine/src/conversion/codegen_rs/fun_codegen.rs:127-133,177-214. -/
def bridgeFn (name : QName) (a : FnAnalysis) (nonPod : List QName) : Option BridgeFn :=
  (bridgeSigParams a).bind fun params =>
  (addExplicitLifetime a.paramDetails params (a.retType.map .plain) nonPod a.retConversion).bind fun sig =>
  (sig.params.mapM SigParam.unqualify).bind fun params =>
  (unqualifyRet sig.ret).map fun ret =>
    { namespaceAttr := fnNamespace name a
      cxxName := fnCxxName a
      isUnsafe := a.requiresUnsafe.bridgeToken
      name := a.cxxbridgeName
      sig := ⟨sig.generic, params, ret⟩ }

/-- `gen_function`: engine/src/conversion/codegen_rs/fun_codegen.rs:88-221. `none` are the panics. A parameter which is a
`self` without a type would be left as it is, but the analysis makes none; it is a panic here. -/
def genFunction (name : QName) (a : FnAnalysis) (nonPod : List QName) : Option FnResult :=
  if a.ignoreReason.isSome || !a.externallyCallable then some {}
  else
    (fnPiece name a nonPod).bind fun piece =>
      (bridgeFn name a nonPod).map fun b => ⟨[b], piece⟩

end Verif
