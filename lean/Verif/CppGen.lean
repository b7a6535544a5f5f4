import Verif.Policy

/-!
# Generating C++

engine/src/conversion/codegen_cpp/mod.rs.
-/

set_option autoImplicit false

namespace Verif

/-- `Header`: engine/src/conversion/codegen_cpp/mod.rs:41-47. -/
inductive Header where
  | system (name : String) | cxxH | cxxgenH | newDeletePrelude
deriving DecidableEq, Repr

/-- `NEW_AND_DELETE_PRELUDE`: engine/src/conversion/codegen_cpp/new_and_delete_prelude.rs:16-43. -/
def newAndDeletePrelude : String :=
  "#ifndef AUTOCXX_NEW_AND_DELETE_PRELUDE\n"
  ++ "#define AUTOCXX_NEW_AND_DELETE_PRELUDE\n"
  ++ "// Mechanics to call custom operator new and delete\n"
  ++ "template <typename T>\n"
  ++ "auto delete_imp(T *ptr, int) -> decltype((void)T::operator delete(ptr)) {\n"
  ++ "  T::operator delete(ptr);\n"
  ++ "}\n"
  ++ "template <typename T> void delete_imp(T *ptr, long) { ::operator delete(ptr); }\n"
  ++ "template <typename T> void delete_appropriately(T *obj) {\n"
  ++ "  // 0 is a better match for the first 'delete_imp' so will match\n"
  ++ "  // preferentially.\n"
  ++ "  delete_imp(obj, 0);\n"
  ++ "}\n"
  ++ "template <typename T>\n"
  ++ "auto new_imp(size_t count, int) -> decltype(T::operator new(count)) {\n"
  ++ "  return T::operator new(count);\n"
  ++ "}\n"
  ++ "template <typename T> void *new_imp(size_t count, long) {\n"
  ++ "  return ::operator new(count);\n"
  ++ "}\n"
  ++ "template <typename T> T *new_appropriately() {\n"
  ++ "  // 0 is a better match for the first 'delete_imp' so will match\n"
  ++ "  // preferentially.\n"
  ++ "  return static_cast<T *>(new_imp<T>(sizeof(T), 0));\n"
  ++ "}\n"
  ++ "#endif // AUTOCXX_NEW_AND_DELETE_PRELUDE\n"

/-- `CppCodegenOptions`: engine/src/lib.rs:812-833, without the annotations for `cxx`. -/
structure CppOptions where
  suppressSystemHeaders : Bool := false
  pathToCxxH : Option String := none
  pathToCxxgenH : Option String := none
  headerNamer : String → String

/-- `Header::include_stmt`: engine/src/conversion/codegen_cpp/mod.rs:50-71. -/
def Header.includeStmt (o : CppOptions) (cxxgenHeader : String) : Header → String
  | .system n => "#include <" ++ n ++ ">"
  | .cxxH => "#include \"" ++ o.pathToCxxH.getD "" ++ "cxx.h\""
  | .cxxgenH => "#include \"" ++ o.pathToCxxgenH.getD "" ++ cxxgenHeader ++ "\""
  | .newDeletePrelude => newAndDeletePrelude

/-- `Header::is_system`: engine/src/conversion/codegen_cpp/mod.rs:73-75. -/
def Header.isSystem : Header → Bool
  | .system _ | .cxxH => true
  | _ => false

/-- `ConversionDirection`: engine/src/conversion/codegen_cpp/mod.rs:78-82. -/
inductive ConversionDirection where
  | rustCallsCpp | cppCallsCpp | cppCallsRust
deriving DecidableEq, Repr

/-- `ExtraCpp`: engine/src/conversion/codegen_cpp/mod.rs:86-93. -/
structure ExtraCpp where
  typeDefinition : Option String := none
  declaration : Option String := none
  definition : Option String := none
  headers : List Header := []
  cppHeaders : List Header := []
deriving DecidableEq, Repr

/-- `collect` into a `Result` of a vector: stops at the first failure. -/
def mapOutcome {α β : Type} (f : α → Outcome β) : List α → Outcome (List β)
  | [] => .ok []
  | a :: l => (f a).bind fun b => (mapOutcome f l).bind fun bs => .ok (b :: bs)

/-- `inverse`, which may panic, followed by something else. -/
def TypeConversionPolicy.inverted {α : Type} (p : TypeConversionPolicy) (f : TypeConversionPolicy → Outcome α) :
    Outcome α :=
  match p.inverse with
  | some q => f q
  | none => .panic

/-- `get_arg_name`: engine/src/conversion/codegen_cpp/mod.rs:362-375. -/
def cppArgName (isMethod : Bool) (i : Nat) : String :=
  if isMethod && i = 0 then "autocxx_gen_this" else "arg" ++ toString i

/-- The type of a parameter: engine/src/conversion/codegen_cpp/mod.rs:385-392. -/
def cppArgType (m : CppNameMap) (dir : ConversionDirection) (p : TypeConversionPolicy) : Outcome String :=
  match dir with
  | .rustCallsCpp => p.unconvertedType m
  | .cppCallsCpp => p.convertedType m
  | .cppCallsRust => p.inverted fun q => q.unconvertedType m

/-- A parameter in the declaration: engine/src/conversion/codegen_cpp/mod.rs:382-395. -/
def cppParam (m : CppNameMap) (dir : ConversionDirection) (isMethod : Bool) (p : TypeConversionPolicy × Nat) :
    Outcome String :=
  (cppArgType m dir p.1).bind fun t => .ok (t ++ " " ++ cppArgName isMethod p.2)

/-- The type of the result: engine/src/conversion/codegen_cpp/mod.rs:398-420. -/
def cppRetType (m : CppNameMap) (dir : ConversionDirection) (d : CppFunction) : Outcome String :=
  let default := match d.kind with
    | .synthesizedConstructor => ""
    | _ => "void"
  match d.returnConversion with
  | none => .ok default
  | some p =>
    match dir with
    | .rustCallsCpp => if p.populateReturnValue then p.convertedType m else .ok default
    | .cppCallsCpp => p.unconvertedType m
    | .cppCallsRust => p.inverted fun q => q.convertedType m

/-- The value passed on for a parameter: engine/src/conversion/codegen_cpp/mod.rs:450-460. -/
def cppArgValue (m : CppNameMap) (dir : ConversionDirection) (isMethod : Bool) (p : TypeConversionPolicy × Nat) :
    Outcome (Option String) :=
  match dir with
  | .rustCallsCpp => p.1.cppConvert m (cppArgName isMethod p.2) false
  | .cppCallsCpp => .ok (some (cppArgName isMethod p.2))
  | .cppCallsRust => p.1.inverted fun q => q.cppConvert m (cppArgName isMethod p.2) false

/-- The parameter for the place of the result: engine/src/conversion/codegen_cpp/mod.rs:433-444. -/
def placementParam (isMethod : Bool) (l : List (TypeConversionPolicy × Nat)) : Option String :=
  (l.find? fun p => p.1.isPlacementParameter).map fun p => cppArgName isMethod p.2

/-- The call of a destructor: engine/src/conversion/codegen_cpp/mod.rs:487-515. -/
def destructorCall (m : CppNameMap) (ns : List String) (id : Ident) (args : String) : String :=
  let ty := m.getFinalItem ⟨ns, id⟩
  let call := args ++ "->" ++ ty ++ "::~" ++ ty ++ "()"
  if ns = [] then call
  else
    let path := m.map ⟨ns, id⟩
    if (AMap.get? m ⟨ns, id⟩).isSome then
      "{ using " ++ ty ++ " = " ++ path ++ "; " ++ call ++ "; " ++ ty ++ "* pointless; (void)pointless; }"
    else "{ using " ++ path ++ "; " ++ call ++ "; }"

/-- The call itself, the arguments for the superclass and whether memory is handled:
engine/src/conversion/codegen_cpp/mod.rs:474-574. The panic is `receiver.unwrap()`. -/
def payloadCall (m : CppNameMap) (receiver : Option String) (args : String) :
    CppFunctionBody → Outcome (String × String × Bool)
  | .cast => .ok (args, "", false)
  | .placementNew ns id =>
    match receiver with
    | some r => .ok ("new (" ++ r ++ ") " ++ m.map ⟨ns, id⟩ ++ "(" ++ args ++ ")", "", false)
    | none => .panic
  | .destructor ns id => .ok (destructorCall m ns id args, "", false)
  | .functionCall ns id =>
    match receiver with
    | some r => .ok (r ++ "." ++ id ++ "(" ++ args ++ ")", "", false)
    | none => .ok (joinCC (ns ++ [id]) ++ "(" ++ args ++ ")", "", false)
  | .staticMethodCall ns ty id => .ok (joinCC (ns ++ [ty, id]) ++ "(" ++ args ++ ")", "", false)
  | .constructSuperclass _ => .ok ("", args, false)
  | .allocUninitialized ty => .ok ("new_appropriately<" ++ m.map ty ++ ">();", "", true)
  | .freeUninitialized ty => .ok ("delete_appropriately<" ++ m.map ty ++ ">(arg0);", "", true)

/-- What is done with the result: engine/src/conversion/codegen_cpp/mod.rs:575-598. -/
def cppReturn (m : CppNameMap) (dir : ConversionDirection) (placement : Option String) (call : String)
    (p : TypeConversionPolicy) : Outcome String :=
  (match dir with
    | .rustCallsCpp => p.cppConvert m call true
    | .cppCallsCpp => .ok (some call)
    | .cppCallsRust => p.inverted fun q => q.cppConvert m call true).bind fun r =>
      match r with
      | none => .panic
      | some e =>
        match placement with
        | some pl => (m.typeToCpp p.unwrappedType).bind fun t => .ok ("new(" ++ pl ++ ") " ++ t ++ "(" ++ e ++ ")")
        | none => .ok ("return " ++ e)

/-- The part between the parameters and the body: engine/src/conversion/codegen_cpp/mod.rs:602-612. -/
def fieldAssignments (payload : CppFunctionBody) (fields : String) : String :=
  match payload with
  | .constructSuperclass sup =>
    ": " ++ (if fields = "" then "" else sup ++ "(" ++ fields ++ "), ") ++ "obs(std::move(arg0))"
  | _ => ""

/-- Whether this is the payload `ConstructSuperclass`. -/
def CppFunctionBody.isConstructSuperclass : CppFunctionBody → Bool
  | .constructSuperclass _ => true
  | _ => false

/-- Whether the first parameter is called `autocxx_gen_this`: engine/src/conversion/codegen_cpp/mod.rs:351-357. -/
def CppFunction.isAMethod (d : CppFunction) (avoidThis : Bool) : Bool :=
  !avoidThis && (d.kind = .method || d.kind = .constMethod || d.kind = .constructor)

/-- The arguments of the call, without the receiver and, for a superclass's constructor, without the first:
engine/src/conversion/codegen_cpp/mod.rs:462-473. -/
def callArgs (d : CppFunction) (isMethod : Bool) (values : List String) : String :=
  let values := if isMethod then values.drop 1 else values
  let values := if d.payload.isConstructSuperclass then values.drop 1 else values
  if d.passObsField then joinWith "," ("*obs" :: values) else joinWith ", " values

/-- What is done with the call: engine/src/conversion/codegen_cpp/mod.rs:575-598. -/
def cppResult (m : CppNameMap) (dir : ConversionDirection) (placement : Option String) (call : String) :
    Option TypeConversionPolicy → Outcome String
  | none => .ok call
  | some p => cppReturn m dir placement call p

/-- The name, parameters and constness: engine/src/conversion/codegen_cpp/mod.rs:421-425. -/
def cppSignature (d : CppFunction) (name : String) (args : List String) : String :=
  name ++ "(" ++ joinWith ", " args ++ ")" ++ (if d.kind = .constMethod then " const" else "")

/-- Where the definition belongs: engine/src/conversion/codegen_cpp/mod.rs:426-430. -/
def CppFunction.qualificationText (d : CppFunction) : String :=
  match d.qualification with
  | some q => q.toCppName ++ "::"
  | none => ""

/-- What follows the parameters: engine/src/conversion/codegen_cpp/mod.rs:599-613. -/
def cppBody (d : CppFunction) (fields call : String) : String :=
  fieldAssignments d.payload fields ++ " { " ++ (if call = "" then "" else call ++ ";") ++ " }"

/-- The end of `generate_cpp_function_inner`: engine/src/conversion/codegen_cpp/mod.rs:614-635. -/
def assembleCpp (d : CppFunction) (rustDeclarations : Bool) (ret sig body : String) (allocators : Bool) : ExtraCpp :=
  { declaration := some (if rustDeclarations then ret ++ " " ++ sig ++ ";"
      else "inline " ++ ret ++ " " ++ sig ++ " " ++ body)
    definition := if rustDeclarations then some (ret ++ " " ++ d.qualificationText ++ sig ++ " " ++ body) else none
    headers := .system "memory" :: (if allocators then [.system "stddef.h", .newDeletePrelude] else []) }

/-- `generate_cpp_function_inner`: engine/src/conversion/codegen_cpp/mod.rs:336-636. -/
def generateCppFunctionInner (m : CppNameMap) (d : CppFunction) (avoidThis : Bool) (dir : ConversionDirection)
    (rustDeclarations : Bool) (forceName : Option String) : Outcome ExtraCpp :=
  (mapOutcome (cppParam m dir (d.isAMethod avoidThis)) d.argumentConversion.zipIdx).bind fun args =>
  (cppRetType m dir d).bind fun ret =>
  (mapOutcome (cppArgValue m dir (d.isAMethod avoidThis)) d.argumentConversion.zipIdx).bind fun values =>
  (payloadCall m (if d.isAMethod avoidThis then (values.filterMap id).head? else none)
    (callArgs d (d.isAMethod avoidThis) (values.filterMap id)) d.payload).bind fun c =>
  (cppResult m dir (placementParam (d.isAMethod avoidThis) d.argumentConversion.zipIdx) c.1 d.returnConversion).bind
    fun call =>
  .ok (assembleCpp d rustDeclarations ret (cppSignature d (forceName.getD d.wrapperFunctionName) args)
    (cppBody d c.2.1 call) c.2.2)

/-- `generate_pod_assertion`: engine/src/conversion/codegen_cpp/mod.rs:294-308. -/
def podAssertion (name : String) : ExtraCpp :=
  { declaration := some ("static_assert(::rust::IsRelocatable<" ++ name ++ ">::value, \"type " ++ name ++
      " should be trivially move constructible and trivially destructible to be used with generate_pod! in autocxx\");")
    headers := [.cxxH] }

/-- `generate_string_constructor`: engine/src/conversion/codegen_cpp/mod.rs:310-322. -/
def stringConstructor (makestring : String) : ExtraCpp :=
  { declaration := some ("inline std::unique_ptr<std::string> " ++ makestring ++
      "(::rust::Str str) { return std::make_unique<std::string>(std::string(str)); }")
    headers := [.system "memory", .system "string", .cxxH] }

/-- `generate_typedef`: engine/src/conversion/codegen_cpp/mod.rs:647-653. -/
def cppTypedef (tn : QName) (definition : String) : ExtraCpp :=
  { typeDefinition := some ("typedef " ++ definition ++ " " ++ tn.name ++ ";") }

/-- `SubclassFunction`: engine/src/conversion/codegen_cpp/mod.rs:110-113. -/
structure SubclassFunction where
  func : CppFunction
  isPureVirtual : Bool
deriving DecidableEq, Repr

/-- The function which calls the superclass's version of a method: engine/src/conversion/codegen_cpp/mod.rs:681-692. -/
def superMethod (sup : QName) (f : CppFunction) : CppFunction :=
  { f with
    passObsField := false
    wrapperFunctionName := (superFnName sup.ns f.wrapperFunctionName).name
    payload := .staticMethodCall sup.ns sup.name f.originalCppName }

/-- The C++ for one overridden method: engine/src/conversion/codegen_cpp/mod.rs:669-703. Gives its declarations within
the class and what goes elsewhere. -/
def subclassMethodCpp (m : CppNameMap) (sup : QName) (f : SubclassFunction) :
    Outcome (List String × List ExtraCpp) :=
  (generateCppFunctionInner m f.func true .cppCallsRust true (some f.func.originalCppName)).bind fun e =>
    if f.isPureVirtual then .ok (e.declaration.toList, [{ e with declaration := none }])
    else
      (generateCppFunctionInner m (superMethod sup f.func) true .cppCallsCpp false none).bind fun s =>
        .ok (e.declaration.toList ++ s.declaration.toList, [{ e with declaration := none }, { s with declaration := none }])

/-- The C++ for one constructor of a subclass: engine/src/conversion/codegen_cpp/mod.rs:721-732. -/
def subclassConstructorCpp (m : CppNameMap) (c : CppFunction) : Outcome (List String × List ExtraCpp) :=
  (generateCppFunctionInner m c false .cppCallsCpp false none).bind fun e =>
    .ok (e.declaration.toList, [{ e with declaration := none }])

/-- The class standing for a subclass: engine/src/conversion/codegen_cpp/mod.rs:733-753. -/
def subclassClass (sup : QName) (sub : ApiName) (ctors methods : List String) : ExtraCpp :=
  { typeDefinition := some ("class " ++ sub.cppPeer.display ++ " : public " ++ sup.toCppName ++ "\n{\npublic:\n" ++
      joinWith "\n" ctors ++ "\n" ++ joinWith "\n" methods ++ "\nvoid " ++ sub.cppRemoveOwnership ++
      "() const;\nprivate:rust::Box<" ++ sub.holder ++ "> obs;\nvoid really_remove_ownership();\n\n};")
    definition := some ("void " ++ sub.cppPeer.display ++ "::" ++ sub.cppRemoveOwnership ++ "() const {\nconst_cast<" ++
      sub.cppPeer.display ++ "*>(this)->really_remove_ownership();\n}\nvoid " ++ sub.cppPeer.display ++
      "::really_remove_ownership() {\nauto new_obs = " ++ sub.removeOwnership ++
      "(std::move(obs));\nobs = std::move(new_obs);\n}\n")
    cppHeaders := [.cxxgenH] }

/-- The casts declared in the class of a subclass: engine/src/conversion/codegen_cpp/mod.rs:705-711. -/
def subclassCastDecls (sup : QName) : List String :=
  ["const " ++ sup.name ++ "& As_" ++ sup.name ++ "() const { return *this; }",
   sup.name ++ "& As_" ++ sup.name ++ "_mut() { return *this; }"]

/-- The cast of `unique_ptr`s: engine/src/conversion/codegen_cpp/mod.rs:712-718. -/
def subclassUniquePtrCast (sup : QName) (sub : ApiName) : ExtraCpp :=
  { declaration := some ("inline std::unique_ptr<" ++ sup.toCppName ++ "> " ++ sub.cppPeer.display ++ "_As_" ++ sup.name ++
      "_UniquePtr(std::unique_ptr<" ++ sub.cppPeer.display ++ "> u) { return std::unique_ptr<" ++ sup.toCppName ++
      ">(u.release()); }") }

/-- `generate_subclass`: engine/src/conversion/codegen_cpp/mod.rs:655-755. -/
def generateSubclass (m : CppNameMap) (sup : QName) (sub : ApiName) (ctors : List CppFunction)
    (methods : List SubclassFunction) : Outcome (List ExtraCpp) :=
  (mapOutcome (subclassMethodCpp m sup) methods).bind fun ms =>
  (mapOutcome (subclassConstructorCpp m) ctors).bind fun cs =>
    .ok ([{ typeDefinition := some ("struct " ++ sub.holder ++ ";") }] ++ ms.flatMap (·.2) ++
      [subclassUniquePtrCast sup sub] ++ cs.flatMap (·.2) ++
      [subclassClass sup sub (cs.flatMap (·.1)) (ms.flatMap (·.1) ++ subclassCastDecls sup)])

/-- The state of the loop of `add_needs`: engine/src/conversion/codegen_cpp/mod.rs:142-144, with what has been made. -/
structure NeedsState where
  made : List ExtraCpp := []
  ctors : AMap ApiName (List CppFunction) := []
  methods : AMap ApiName (List SubclassFunction) := []
  deferred : List (ApiName × QName) := []

/-- `entry(k).or_default().push(v)`. -/
def pushUnder {β : Type} (m : AMap ApiName (List β)) (k : ApiName) (v : β) : AMap ApiName (List β) :=
  AMap.insert m k ((AMap.get? m k).getD [] ++ [v])

/-- One turn of the loop: engine/src/conversion/codegen_cpp/mod.rs:145-211. -/
def needsStep (m : CppNameMap) (makestring : String) (s : NeedsState) : FnApi → Outcome NeedsState
  | .stringConstructor _ => .ok { s with made := s.made ++ [stringConstructor makestring] }
  | .function _ f a =>
    match a.cppWrapper, a.ignoreReason, a.externallyCallable with
    | some w, none, true =>
      let s := match f.provenance with
        | .synthesizedSubclassConstructor sub _ impl => { s with ctors := pushUnder s.ctors sub impl }
        | _ => s
      (generateCppFunctionInner m w false .rustCallsCpp false none).bind fun e => .ok { s with made := s.made ++ [e] }
    | _, _, _ => .panic
  | .concreteType n rs cpp =>
    (match rs with
      | some t => m.typeToCpp t
      | none => .ok cpp).bind fun d => .ok { s with made := s.made ++ [cppTypedef n.name d] }
  | .ctype _ tn => .ok { s with made := s.made ++ [cppTypedef tn tn.toCppName] }
  | .subclass n sup => .ok { s with deferred := s.deferred ++ [(n, sup)] }
  | .rustSubclassFn _ sub d => .ok { s with methods := pushUnder s.methods sub ⟨d.cppImpl, d.isPureVirtual⟩ }
  | .struct n _ a =>
    if a.pod.kind = .pod then .ok { s with made := s.made ++ [podAssertion n.qualifiedCppName] } else .panic
  | _ => .panic

/-- A loop which may stop early. -/
def foldOutcome {α β : Type} (f : β → α → Outcome β) : β → List α → Outcome β
  | b, [] => .ok b
  | b, a :: l => (f b a).bind fun b => foldOutcome f b l

/-- One of the subclasses put off: engine/src/conversion/codegen_cpp/mod.rs:213-223. -/
def deferredStep (m : CppNameMap) (s : NeedsState) (p : ApiName × QName) : Outcome NeedsState :=
  (generateSubclass m p.2 p.1 ((AMap.get? s.ctors p.1).getD []) ((AMap.get? s.methods p.1).getD [])).bind fun l =>
    .ok { s with made := s.made ++ l, ctors := AMap.erase s.ctors p.1, methods := AMap.erase s.methods p.1 }

/-- `add_needs`: engine/src/conversion/codegen_cpp/mod.rs:138-225. -/
def addNeeds (m : CppNameMap) (makestring : String) (apis : List FnApi) : Outcome (List ExtraCpp) :=
  (foldOutcome (needsStep m makestring) {} apis).bind fun s =>
    (foldOutcome (deferredStep m) s s.deferred).bind fun s => .ok s.made

/-- `collect_headers`: engine/src/conversion/codegen_cpp/mod.rs:265-279. -/
def collectHeaders (o : CppOptions) (cxxgenHeader : String) (made : List ExtraCpp) (sel : ExtraCpp → List Header) :
    String :=
  joinWith "\n" ((((made.flatMap sel).filter fun h => !o.suppressSystemHeaders || !h.isSystem).foldl setInsert []).map
    (Header.includeStmt o cxxgenHeader))

/-- `concat_additional_items`: engine/src/conversion/codegen_cpp/mod.rs:281-292. -/
def concatItems (made : List ExtraCpp) (sel : ExtraCpp → Option String) : String :=
  joinWith "\n" (made.filterMap sel) ++ "\n"

/-- `GENERATED_FILE_HEADER`: engine/src/conversion/codegen_cpp/mod.rs:38-39. -/
def generatedFileHeader : String := "// Generated using autocxx - do not edit directly.\n// @generated.\n\n"

/-- `CppFilePair`: engine/src/lib.rs:77-85. -/
structure CppFilePair where
  header : String
  implementation : Option String
  headerName : String
deriving DecidableEq, Repr

/-- `generate`: engine/src/conversion/codegen_cpp/mod.rs:227-263. -/
def generateFiles (o : CppOptions) (cxxgenHeader modName inclusions : String) (made : List ExtraCpp) :
    Option CppFilePair :=
  if made = [] then none
  else
    let headerName := o.headerNamer modName
    some
      { header := generatedFileHeader ++ "\n#ifndef __AUTOCXXGEN_H__\n#define __AUTOCXXGEN_H__\n\n" ++
          collectHeaders o cxxgenHeader made (·.headers) ++ "\n" ++ inclusions ++ "\n" ++
          concatItems made (·.typeDefinition) ++ "\n" ++ concatItems made (·.declaration) ++
          "#endif // __AUTOCXXGEN_H__\n"
        implementation := if made.any (fun e => e.definition.isSome) then
            some (generatedFileHeader ++ "\n#include \"" ++ headerName ++ "\"\n" ++
              collectHeaders o cxxgenHeader made (·.cppHeaders) ++ "\n" ++ concatItems made (·.definition))
          else none
        headerName := headerName }

/-- `generate_cpp_code`: engine/src/conversion/codegen_cpp/mod.rs:116-135. -/
def generateCppCode (o : CppOptions) (hash : Config → Nat) (cfg : Config) (cxxgenHeader inclusions : String)
    (apis : List FnApi) : Outcome (Option CppFilePair) :=
  (addNeeds (CppNameMap.ofApis apis) (cfg.makestringName hash) (apis.filter fun a => a.needsCppCodegen)).bind fun made =>
    .ok (generateFiles o cxxgenHeader cfg.getModName inclusions made)

end Verif
