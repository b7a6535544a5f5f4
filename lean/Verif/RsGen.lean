import Verif.RsFn
import Verif.Pipeline

/-!
# The generated Rust code

engine/src/conversion/codegen_rs/mod.rs, engine/src/conversion/codegen_rs/impl_item_creator.rs and
engine/src/conversion/codegen_rs/non_pod_struct.rs: what is generated for each item but a function, and how the pieces are
put together. Functions are in `RsFn`, modules in `NsTree`. Documentation comments, other attributes without an effect and
the text of panic messages are left out.
-/

set_option autoImplicit false

namespace Verif

/-! ## What is generated -/

/-- A method in a trait for the subclasses of a class: engine/src/conversion/codegen_rs/mod.rs:846-875. -/
structure TraitFn where
  isUnsafe : Bool
  name : Ident
  /-- `&mut self` rather than `&self` -/
  selfMut : Bool
  rest : List FnArg
  ret : Option Ty
  /-- `{ self.callee(args) }` -/
  body : Option (Ident × List Ident)
deriving DecidableEq, Repr

/-- A method in the `impl` of such a trait: engine/src/conversion/codegen_rs/mod.rs:575-599. -/
structure SupersFn where
  isUnsafe : Bool
  name : Ident
  selfMut : Bool
  rest : List FnArg
  ret : Option Ty
  /-- `peer_mut` rather than `peer` -/
  peerMut : Bool
  callee : Ident
  args : List Ident
deriving DecidableEq, Repr

/-- Items in the output modules. -/
inductive OutDecl where
  /-- `pub use path;`, the path being that of something bindgen made -/
  | useBindgen (path : List String)
  /-- `pub use path;` or `pub use path as alias;`, the path being that of something in the bridge -/
  | useBridge (path : List String) (alias : Option Ident)
  | fn (f : RsFnItem)
  /-- `pub struct name<T0, …> { _hidden_contents: UnsafeCell<MaybeUninit<hidden<T0, …>>> }` -/
  | opaqueStruct (name : Ident) (generics : Nat) (hidden : List String)
  /-- `unsafe impl cxx::ExternType for ty { type Id = cxx::type_id!(typeId); type Kind = … }` -/
  | externType (ty : Ident) (typeId : String) (trivial : Bool)
  /-- `pub use path as alias;`, the path being one given by the user -/
  | useAs (path : RustPath) (alias : Ident)
  /-- `pub struct name;` with an explanation -/
  | failed (name : Ident) (err : Err)
  /-- `pub trait name : parent { … }` -/
  | trait (name : Ident) (parent : Option Ident) (fns : List TraitFn)
  /-- `impl trait for super::sub { … }` -/
  | implSupers (trait : List String) (sub : Ident) (fns : List SupersFn)
  /-- `pub struct name(pub autocxx::subclass::CppSubclassRustPeerHolder<super::sub>);` -/
  | holder (name : Ident) (sub : Ident)
  /-- `impl autocxx::subclass::CppSubclassCppPeer for peer { fn relinquish_ownership(&self) { self.callee(); } }` -/
  | cppPeer (peer : Ident) (callee : Ident)
  /-- `impl autocxx::subclass::CppPeerConstructor<peer> for super::sub { … UniquePtr<path> { … peer::new(peer_holder) } }` -/
  | peerConstructor (peer : Ident) (sub : Ident) (path : List String)
  /-- `impl AsRef<sup> for super::sub { fn as_ref(&self) -> &cxxbridge::bridged { self.peer().callee() } }` -/
  | asRef (sup : List String) (sub : Ident) (bridged : Ident) (callee : Ident)
  /-- `impl super::sub { pub fn pin_mut(&mut self) -> Pin<&mut cxxbridge::bridged> { self.peer_mut().callee() } }` -/
  | pinMut (sub : Ident) (bridged : Ident) (callee : Ident)
  /-- `impl super::sub { pub fn name(u: UniquePtr<peer>) -> UniquePtr<cxxbridge::bridged> { cxxbridge::callee(u) } }` -/
  | asUniquePtr (sub : Ident) (name : Ident) (peer : Ident) (bridged : Ident) (callee : Ident)

/-- Members of `impl` blocks. -/
inductive ImplMember where
  | fn (f : RsFnItem)
  /-- `fn method(_uhoh: autocxx::BindingGenerationFailure) {}` with an explanation -/
  | failed (method : Ident) (err : Err)

/-- Items in the `extern "C++"` block of the bridge. -/
inductive BridgeDecl where
  /-- `#[namespace = …] #[cxx_name = …] type name;` or `type name = super::alias;` -/
  | type (ns : Option String) (cxxName : Option String) (name : Ident) (alias : Option (List String))
  /-- `type name = autocxx::name;` -/
  | ctype (name : Ident)
  | fn (b : BridgeFn)
  /-- `fn name(str_: &str) -> UniquePtr<CxxString>;` -/
  | makeString (name : Ident)
  /-- `fn name(self: &peer);` -/
  | removeOwnership (name : Ident) (peer : Ident)
  /-- `fn name(self: &peer) -> &sup;` -/
  | asRef (name : Ident) (peer : Ident) (sup : Ident)
  /-- `fn name(self: Pin<&mut peer>) -> Pin<&mut sup>;` -/
  | asMut (name : Ident) (peer : Ident) (sup : Ident)
  /-- `fn name(u: UniquePtr<peer>) -> UniquePtr<sup>;` -/
  | asUniquePtr (name : Ident) (peer : Ident) (sup : Ident)
  /-- `include!(header);` -/
  | incl (header : String)

/-- Items in the `extern "Rust"` block of the bridge. -/
inductive RustDecl where
  | type (name : Ident)
  | rustFn (sig : RustSig)
  /-- `pub type name;` -/
  | holder (name : Ident)
  /-- `fn name(me: Box<holder>) -> Box<holder>;` -/
  | removeOwnership (name : Ident) (holder : Ident)
  | subclassFn (isUnsafe : Bool) (name : Ident) (params : List FnArg) (ret : Option Ty)
deriving DecidableEq, Repr

/-- The smart pointers and vectors the bridge is asked for. -/
inductive PtrImpl where
  | uniquePtr (t : Ident)
  | sharedPtr (t : Ident)
  | weakPtr (t : Ident)
  | cxxVector (t : Ident)
deriving DecidableEq, Repr

/-- The function C++ calls for a virtual method: engine/src/conversion/codegen_rs/mod.rs:722-736. -/
structure SubclassFnDef where
  isUnsafe : Bool
  name : Ident
  params : List FnArg
  ret : Option Ty
  /-- `try_borrow_mut` and `DerefMut` rather than `try_borrow` and `Deref` -/
  mutable : Bool
  /-- `trait::method(r, args)` -/
  trait : List String
  method : Ident
  args : List Ident
deriving DecidableEq, Repr

/-- Items at the top level. -/
inductive GlobalDecl where
  /-- The trait `ToCppString` and its implementations, which call `make_string` -/
  | toCppString
  /-- `use super::path;` -/
  | use (path : RustPath)
  /-- `pub fn name(me: Box<holder>) -> Box<holder> { … }` -/
  | removeOwnership (name : Ident) (holder : Ident)
  | subclassFn (f : SubclassFnDef)
deriving DecidableEq, Repr

/-- `RsCodegenResult`: engine/src/conversion/codegen_rs/mod.rs:1094-1105. -/
structure ApiCode where
  externC : List BridgeDecl := []
  externRust : List RustDecl := []
  impls : List PtrImpl := []
  globals : List GlobalDecl := []
  piece : RsPiece OutDecl Ident TraitKey ImplMember := {}

/-! ## Types -/

/-- `create_impl_items`: engine/src/conversion/codegen_rs/impl_item_creator.rs:12-41. -/
def implItems (cfg : Config) (id : Ident) (movable destroyable : Bool) : List PtrImpl :=
  if cfg.excludeImpls then []
  else (if destroyable then [.uniquePtr id, .sharedPtr id, .weakPtr id] else []) ++
    (if movable then [.cxxVector id] else [])

/-- The path from the module of an item to what bindgen made for it: engine/src/conversion/codegen_rs/mod.rs:953,
engine/src/conversion/codegen_rs/non_pod_struct.rs:74. -/
def bindgenUsePath (q : QName) : List String := outputModRoot q.ns ++ q.bindgenPath

/-- `generate_cxxbridge_type`: engine/src/conversion/codegen_rs/mod.rs:976-1033. -/
def bridgeType (m : CppNameMap) (name : QName) (referencesBindgen : Bool) : BridgeDecl :=
  let cpp := (AMap.get? m name).map QName.ofCppName
  let ns := match cpp with
    | some c => name.ns ++ c.ns
    | none => name.ns
  .type (if ns = [] then none else some (joinCC ns)) (cpp.map (·.name)) name.name
    (if referencesBindgen then some name.segs else none)

/-- `generate_extern_type_impl`: engine/src/conversion/codegen_rs/mod.rs:960-974. -/
def externTypeImpl (m : CppNameMap) (kind : TypeKind) (name : QName) : OutDecl :=
  .externType name.name (m.map name) (kind = .pod)

/-- A method changed to have a `self`: engine/src/conversion/codegen_rs/mod.rs:588,854-857. `none` is the panic for a
method with no parameter. -/
def afterSelf : List FnArg → Option (List FnArg)
  | [] => none
  | _ :: l => some l

/-- `args_from_sig`: engine/src/conversion/codegen_rs/mod.rs:742-750. -/
def argsFromSig (params : List FnArg) : List Ident :=
  (params.drop 1).filterMap fun p =>
    match p with
    | .receiver _ => none
    | .typed n _ => some n

/-- Whether the receiver is mutable. -/
def ReceiverMutability.isMut : ReceiverMutability → Bool
  | .const => false
  | .mutable => true

/-- What one method puts in the two traits of a superclass: engine/src/conversion/codegen_rs/mod.rs:844-876. -/
def traitFns (m : SuperclassMethod) : Option (Option TraitFn × TraitFn) :=
  (afterSelf m.params).map fun rest =>
    let fn (name : Ident) (body : Option (Ident × List Ident)) : TraitFn :=
      { isUnsafe := m.requiresUnsafe.wrapperToken
        name := name
        selfMut := m.receiverMutability.isMut
        rest := rest
        ret := m.retType
        body := body }
    let superId := (superFnName [] m.name).name
    if m.isPureVirtual then (none, fn m.name none)
    else (some (fn superId none), fn m.name (some (superId, argsFromSig m.params)))

/-- `add_superclass_stuff_to_type`: engine/src/conversion/codegen_rs/mod.rs:837-905. -/
def superclassTraits (name : QName) : Option (List SuperclassMethod) → Option (List OutDecl)
  | none => some []
  | some methods =>
    (methods.mapM traitFns).map fun l =>
      let supers := l.filterMap (·.1)
      let mains := l.map (·.2)
      if supers ≠ [] then
        [.trait (supersTraitName name).name none supers,
          .trait (methodsTraitName name).name (some (supersTraitName name).name) mains]
      else [.trait (methodsTraitName name).name none mains]

/-- `generate_type`: engine/src/conversion/codegen_rs/mod.rs:753-835, with `generate_bindgen_use_stmt` (952-958) and
`generate_opaque_type` (engine/src/conversion/codegen_rs/non_pod_struct.rs:69-95). -/
def genType (cfg : Config) (m : CppNameMap) (name : QName) (kind : TypeKind) (movable destroyable : Bool)
    (methods : Option (List SuperclassMethod)) (numGenerics : Nat) : Option ApiCode :=
  (superclassTraits name methods).map fun traits =>
    match kind with
    | .pod | .nonPod | .opaque =>
      let items := traits ++
        [if kind = .pod then .useBindgen (bindgenUsePath name)
         else .opaqueStruct name.name numGenerics (bindgenUsePath name)]
      if 0 < numGenerics then { piece := { items := items } }
      else
        { impls := implItems cfg name.name movable destroyable
          externC := [bridgeType m name true]
          piece := { items := items ++ [externTypeImpl m kind name] } }
    | .abstract =>
      if 0 < numGenerics then {}
      else
        { externC := [bridgeType m name false]
          impls := implItems cfg name.name movable destroyable
          piece := { items := traits ++ [.useBridge (cxxUsePath name) none] } }

/-! ## Subclasses -/

/-- A method of the superclass, called through the peer: engine/src/conversion/codegen_rs/mod.rs:575-599. -/
def supersFn (m : SuperclassMethod) : Option SupersFn :=
  (afterSelf m.params).map fun rest =>
    { isUnsafe := m.requiresUnsafe.wrapperToken
      name := (superFnName [] m.name).name
      selfMut := m.receiverMutability.isMut
      rest := rest
      ret := m.retType
      peerMut := m.receiverMutability.isMut
      callee := (superFnName [] m.name).name
      args := m.paramNames.drop 1 }

/-- The implementation of the trait of the superclass: engine/src/conversion/codegen_rs/mod.rs:571-608. -/
def supersImpl (sub : ApiName) (sup : QName) : Option (List SuperclassMethod) → Option (List OutDecl)
  | none => some []
  | some methods =>
    ((methods.filter fun m => !m.isPureVirtual).mapM supersFn).map fun fns =>
      if fns ≠ [] then [.implSupers (supersTraitName sup).toTypePath sub.name.name fns] else []

/-- The names of the functions which cast a subclass: engine/src/conversion/codegen_rs/mod.rs:620,624,628,652. -/
def asRefName (sup : QName) : Ident := "As_" ++ sup.name

/-- As above. -/
def asMutName (sup : QName) : Ident := "As_" ++ sup.name ++ "_mut"

/-- As above. -/
def asUniquePtrName (sub : ApiName) (sup : QName) : Ident := sub.cppPeer.name ++ "_As_" ++ sup.name ++ "_UniquePtr"

/-- As above. -/
def rsAsUniquePtrName (sup : QName) : Ident := "as_" ++ sup.name ++ "_unique_ptr"

/-- `generate_subclass`: engine/src/conversion/codegen_rs/mod.rs:538-686. -/
def genSubclass (cfg : Config) (m : CppNameMap) (sub : ApiName) (sup : QName) (methods : Option (List SuperclassMethod))
    (peerConstructor : Bool) : Option ApiCode :=
  (supersImpl sub sup methods).map fun supers =>
    let peer := sub.cppPeer.name
    { externC :=
        [bridgeType m sub.cppPeer false,
          .removeOwnership sub.cppRemoveOwnership peer,
          .asRef (asRefName sup) peer sup.name,
          .asMut (asMutName sup) peer sup.name,
          .asUniquePtr (asUniquePtrName sub sup) peer sup.name]
      impls := implItems cfg peer false true
      globals := [.removeOwnership sub.removeOwnership sub.holder]
      externRust := [.holder sub.holder, .removeOwnership sub.removeOwnership sub.holder]
      piece :=
        { items :=
            [.useBridge ["cxxbridge", peer] none, .holder sub.holder sub.name.name,
              .cppPeer peer sub.cppRemoveOwnership] ++ supers ++
            (if peerConstructor then [.peerConstructor peer sub.name.name sub.cppPeer.toTypePath] else []) ++
            [.asRef sup.toTypePath sub.name.name sup.name (asRefName sup),
              .pinMut sub.name.name sup.name (asMutName sup),
              .asUniquePtr sub.name.name (rsAsUniquePtrName sup) peer sup.name (asUniquePtrName sub sup)] } }

/-- `unqualify_params`: engine/src/conversion/codegen_rs/unqualify.rs:97-111. -/
def FnArg.unqualify : FnArg → Option FnArg
  | .typed n t => (Verif.unqualify t).map (.typed n)
  | .receiver t => some (.receiver t)

/-- `unqualify_ret_type`, for a plain type: engine/src/conversion/codegen_rs/unqualify.rs:72-79. -/
def unqualifyRetTy : Option Ty → Option (Option Ty)
  | none => some none
  | some t => (unqualify t).map some

/-- `generate_subclass_fn`: engine/src/conversion/codegen_rs/mod.rs:688-740. -/
def genSubclassFn (name : Ident) (d : RustSubclassFnDetails) : Option ApiCode :=
  (d.params.mapM FnArg.unqualify).bind fun params =>
  (unqualifyRetTy d.ret).map fun ret =>
    { globals := [.subclassFn
        { isUnsafe := d.requiresUnsafe.wrapperToken
          name := name
          params := d.params
          ret := d.ret
          mutable := d.receiverMutability.isMut
          trait := (methodsTraitName d.superclass).toTypePath
          method := d.methodName
          args := argsFromSig params }]
      externRust := [.subclassFn d.requiresUnsafe.wrapperToken name params ret] }

/-! ## Everything -/

/-- `generate_error_entry`: engine/src/conversion/codegen_rs/mod.rs:923-950. -/
def errorEntry (err : Err) : ErrorContext → ApiCode
  | .item id | .sanitizedItem id => { piece := { items := [.failed id err] } }
  | .method selfTy method => { piece := { implEntry := some (selfTy, .failed method err) } }

/-- What a function contributes, among what other items do. -/
def FnOutItem.toDecl : FnOutItem → OutDecl
  | .fn f => .fn f
  | .useBridge p a => .useBridge p a

/-- As above. -/
def FnResult.code (r : FnResult) : ApiCode where
  externC := r.externC.map .fn
  piece :=
    { items := r.piece.items.map FnOutItem.toDecl
      implEntry := r.piece.implEntry.map fun e => (e.1, .fn e.2)
      traitImplEntry := r.piece.traitImplEntry.map fun e => (e.1, .fn e.2) }

/-- `accumulate_superclass_methods`: engine/src/conversion/codegen_rs/mod.rs:255-274, with `superclasses`
(parser/src/config.rs:435-439). -/
def superclassMethods (cfg : Config) (apis : List FnApi) : AMap QName (List SuperclassMethod) :=
  apis.foldl (init := cfg.subclasses.foldl (init := []) fun m s => AMap.insert m (QName.ofCppName s.superclass) [])
    fun m a =>
      match a with
      | .subclassTraitItem _ d =>
        match AMap.get? m d.receiver with
        | some l => AMap.insert m d.receiver (l ++ [d])
        | none => m
      | _ => m

/-- The subclass constructors among some items: engine/src/conversion/codegen_rs/mod.rs:1037-1049. -/
def subclassCtorsIn (apis : List FnApi) : List (QName × Bool) :=
  apis.filterMap fun a =>
    match a with
    | .function _ f _ =>
      match f.provenance with
      | .synthesizedSubclassConstructor sub trivial _ => some (sub.name, trivial)
      | _ => none
    | _ => none

/-- `find_trivially_constructed_subclasses`: engine/src/conversion/codegen_rs/mod.rs:1036-1057. The result is a set. -/
def triviallyConstructed (apis : List FnApi) : List QName :=
  let (simple, other) := (subclassCtorsIn apis).partition (·.2)
  (simple.map (·.1)).filter fun q => q ∉ other.map (·.1)

/-- `find_non_pod_types`: engine/src/conversion/codegen_rs/mod.rs:1059-1078. The result is a set. -/
def nonPodTypes (apis : List FnApi) : List QName :=
  apis.filterMap fun a =>
    match a with
    | .struct n _ an => if an.pod.kind = .nonPod then some n.name else none
    | _ => none

/-- What `generate_rs_for_api` uses beside the item: engine/src/conversion/codegen_rs/mod.rs:122-130,376-382. -/
structure RsEnv where
  policy : UnsafePolicy
  cfg : Config
  makestring : Ident
  names : CppNameMap
  methods : AMap QName (List SuperclassMethod)
  trivial : List QName
  nonPod : List QName

/-- `generate_rs_for_api`: engine/src/conversion/codegen_rs/mod.rs:376-536. `none` are the panics. The model's items do not
hold the signature of a Rust function and the path for an `extern_cpp_type!`; both are looked up among the directives they
come from (the last of those for a C++ type, as in `replace_extern_cpp_types`), and a missing one counts as a panic, which
`configured_items_found` rules out. -/
def genApi (e : RsEnv) : FnApi → Option ApiCode
  | .stringConstructor n =>
    some
      { externC := [.makeString e.makestring]
        globals := [.toCppString]
        piece := { items := [.useBridge (cxxUsePath n.name) (some "make_string")] } }
  | .function n _ a => (genFunction n.name a e.nonPod).map FnResult.code
  | .const n _ | .typedef n _ _ _ => some { piece := { items := [.useBindgen (bindgenUsePath n.name)] } }
  | .struct n _ a =>
    genType e.cfg e.names n.name a.pod.kind a.constructors.moveConstructor a.constructors.destructor
      (AMap.get? e.methods n.name) a.pod.numGenerics
  | .enum n _ => genType e.cfg e.names n.name .pod true true (AMap.get? e.methods n.name) 0
  | .concreteType n _ _ => genType e.cfg e.names n.name .abstract false true (AMap.get? e.methods n.name) 0
  | .forwardDeclaration n _ | .opaqueTypedef n _ =>
    genType e.cfg e.names n.name .abstract false false (AMap.get? e.methods n.name) 0
  | .ctype n _ => some { externC := [.ctype n.name.name] }
  | .rustType n _ =>
    (e.cfg.rustTypes.find? fun p => p.getLast? = some n.name.name).map fun p =>
      { globals := [.use p], externRust := [.type n.name.name] }
  | .rustFn n _ =>
    (e.cfg.externRustFuns.find? fun f => f.sig.ident = n.name.name).map fun f =>
      { globals := if f.hasReceiver then [] else [.use f.path], externRust := [.rustFn f.sig] }
  | .rustSubclassFn n _ d => genSubclassFn n.name.name d
  | .subclass n sup =>
    genSubclass e.cfg e.names n sup (AMap.get? e.methods sup)
      (n.name ∈ e.trivial && decide (e.policy = .allFunctionsSafe))
  | .externCppType n _ _ =>
    (e.cfg.externs.reverse.find? fun x => QName.ofCppName x.1 = n.name).map fun x =>
      { externC := [bridgeType e.names n.name true]
        piece := { items := [.useAs x.2.rustPath n.name.name] } }
  | .ignoredItem _ err (some ctx) => some (errorEntry err ctx)
  | .ignoredItem _ _ none | .subclassTraitItem _ _ => some {}

/-- The whole of the generated code: engine/src/conversion/codegen_rs/mod.rs:153-253. Apart from these it has what bindgen
made, in a module `bindgen`, `use bindgen::root;` and `use super::modName as output;`. -/
structure RsFile where
  bridgeImpls : List PtrImpl
  externC : List BridgeDecl
  externRust : List RustDecl
  globals : List GlobalDecl
  modName : Ident
  output : List (OutItem OutDecl Ident TraitKey ImplMember)

/-- `build_include_foreign_items`: engine/src/conversion/codegen_rs/mod.rs:284-298. `none` is the panic when there is C++
to generate but there is no header for it. -/
def includeItems (includes : List String) (needed : Bool) (headerName : Option String) : Option (List BridgeDecl) :=
  if needed then headerName.map fun h => (includes ++ [h]).map .incl
  else some (includes.map .incl)

/-- The environment `rs_codegen` makes: engine/src/conversion/codegen_rs/mod.rs:142-149,157-160. -/
def RsEnv.ofApis (hash : Config → Nat) (policy : UnsafePolicy) (cfg : Config) (apis : List FnApi) : RsEnv where
  policy := policy
  cfg := cfg
  makestring := cfg.makestringName hash
  names := CppNameMap.ofApis apis
  methods := superclassMethods cfg apis
  trivial := triviallyConstructed apis
  nonPod := nonPodTypes apis

/-- More than the number of namespaces around any item. -/
def nsFuel (apis : List FnApi) : Nat := (apis.foldl (fun d a => max d a.name.ns.length) 0) + 1

/-- `generate_rs_code` and `rs_codegen`: engine/src/conversion/codegen_rs/mod.rs:134-253. `none` are the panics. -/
def generateRsCode (hash : Config → Nat) (policy : UnsafePolicy) (cfg : Config) (includes : List String)
    (headerName : Option String) (apis : List FnApi) : Option RsFile :=
  (apis.mapM (genApi (RsEnv.ofApis hash policy cfg apis))).bind fun codes =>
  (outputModules (nsFuel apis) ((apis.map Api.name).zip (codes.map (·.piece)))).bind fun output =>
  (includeItems includes (apis.any FnApi.needsCppCodegen) headerName).map fun incls =>
    { bridgeImpls := codes.flatMap (·.impls)
      externC := codes.flatMap (·.externC) ++ incls
      externRust := codes.flatMap (·.externRust)
      globals := codes.flatMap (·.globals)
      modName := cfg.getModName
      output := output }

/-- `convert`: engine/src/conversion/mod.rs:109-212. -/
def convertAll (fuel : Nat) (hash : Config → Nat) (sigOf : RustSig → RustFnSig) (policy : UnsafePolicy) (cfg : Config)
    (force : Bool) (cb : Callbacks) (content : Option (List BindgenItem)) (o : CppOptions)
    (cxxgenHeader inclusions : String) (includes : List String) :
    PassRun (Except ConvertErr (RsFile × Option CppFilePair)) :=
  (convertToCpp fuel hash sigOf policy cfg force cb content o cxxgenHeader inclusions).andThen fun r =>
    match generateRsCode hash policy cfg includes (r.2.map (·.headerName)) r.1.apis with
    | none => .panic
    | some f => .done (.ok (f, r.2))

end Verif
