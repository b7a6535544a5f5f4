import Verif.CppGen
import Verif.PolicyProps
import Verif.FnMoreProps

/-!
# What the generated C++ functions do

C25 (the C++ and Rust sides agree about every type), C26 (arguments are passed on once and in order), C65 (the right
function is called).
-/

set_option autoImplicit false

namespace Verif

/-! ## A little C++ -/

/-- An expression made of one thing of type `α`: a variable, or a call. -/
inductive CExpr (α : Type) where
  | leaf (a : α)
  | paren (e : CExpr α)
  | deref (e : CExpr α)
  | addr (e : CExpr α)
  | move (e : CExpr α)
  | makeUnique (type : String) (e : CExpr α)

/-- How an expression is written. -/
def CExpr.render {α : Type} (f : α → String) : CExpr α → String
  | .leaf a => f a
  | .paren e => "(" ++ e.render f ++ ")"
  | .deref e => "*" ++ e.render f
  | .addr e => "&" ++ e.render f
  | .move e => "std::move(" ++ e.render f ++ ")"
  | .makeUnique t e => "std::make_unique<" ++ t ++ ">(" ++ e.render f ++ ")"

/-- The one thing an expression is made of. -/
def CExpr.uses {α : Type} : CExpr α → α
  | .leaf a => a
  | .paren e | .deref e | .addr e | .move e | .makeUnique _ e => e.uses

/-- What a variable or a call may hold or give: an object (numbered), a pointer to it, or its owner. -/
inductive CHeld where
  | object (o : Nat) | pointer (o : Nat) | owner (o : Nat)

/-- What an expression may be: an object in place, an object which may be moved from, a pointer to an object, its owner,
or the owner of a new object made from it. -/
inductive CVal where
  | object (o : Nat) | movable (o : Nat) | pointer (o : Nat) | owner (o : Nat) | newOwner (o : Nat)
deriving DecidableEq

/-- What an expression is, if it makes sense. -/
def CExpr.eval {α : Type} (h : CHeld) : CExpr α → Option CVal
  | .leaf _ =>
    match h with
    | .object o => some (.object o)
    | .pointer o => some (.pointer o)
    | .owner o => some (.owner o)
  | .paren e => e.eval h
  | .deref e =>
    match e.eval h with
    | some (.pointer o) | some (.owner o) => some (.object o)
    | _ => none
  | .addr e =>
    match e.eval h with
    | some (.object o) => some (.pointer o)
    | _ => none
  | .move e =>
    match e.eval h with
    | some (.object o) => some (.movable o)
    | _ => none
  | .makeUnique _ e =>
    match e.eval h with
    | some (.object o) | some (.movable o) => some (.newOwner o)
    | _ => none

/-- What each conversion is for: given this, it provides that. -/
inductive Turns : Bool → CppConversionType → CHeld → CVal → Prop
  | same {r : Bool} {o : Nat} : Turns r .none (.object o) (.object o)
  | samePointer {r : Bool} {o : Nat} : Turns r .none (.pointer o) (.pointer o)
  | sameOwner {r : Bool} {o : Nat} : Turns r .none (.owner o) (.owner o)
  | forPlace {r : Bool} {o : Nat} : Turns r .fromReturnValueToPlacementPtr (.object o) (.object o)
  | reference {r : Bool} {o : Nat} : Turns r .fromPointerToReference (.pointer o) (.object o)
  | move {r : Bool} {o : Nat} : Turns r .move (.object o) (.movable o)
  | value {r : Bool} {o : Nat} : Turns r .fromUniquePtrToValue (.owner o) (.movable o)
  | moved {r : Bool} {o : Nat} : Turns r .fromPtrToMove (.pointer o) (.movable o)
  | argument {o : Nat} : Turns false .fromPtrToValue (.pointer o) (.movable o)
  | result {o : Nat} : Turns true .fromPtrToValue (.pointer o) (.object o)
  | owner {r : Bool} {o : Nat} : Turns r .fromValueToUniquePtr (.object o) (.newOwner o)
  | pointer {r : Bool} {o : Nat} : Turns r .fromReferenceToPointer (.object o) (.pointer o)

/-- The expression uses this one thing, and does what the conversion is for. -/
structure Delivers {α : Type} (isReturn : Bool) (c : CppConversionType) (a : α) (e : CExpr α) : Prop where
  uses : e.uses = a
  turns : ∀ {h v}, Turns isReturn c h v → e.eval h = some v

theorem render_star (v : String) : "(*" ++ v ++ ")" = "(" ++ ("*" ++ v) ++ ")" := by
  rw [show "(*" = "(" ++ "*" from by decide]
  simp only [String.append_assoc]

theorem render_moved (v : String) : "std::move(*" ++ v ++ ")" = "std::move(" ++ ("*" ++ v) ++ ")" := by
  rw [show "std::move(*" = "std::move(" ++ "*" from by decide]
  simp only [String.append_assoc]

/-- C26: a conversion is written as an expression which uses what is converted once and does what the conversion is for;
only the place for a result is not passed on. -/
theorem convert_expr {α : Type} (f : α → String) {m : CppNameMap} {p : TypeConversionPolicy} {a : α} {isReturn : Bool}
    {r : Option String} (h : p.cppConvert m (f a) isReturn = .ok r) :
    (r = none ∧ p.isPlacementParameter = true) ∨
      ∃ e : CExpr α, r = some (e.render f) ∧ Delivers isReturn p.cppConversion a e ∧ p.isPlacementParameter = false := by
  obtain ⟨ty, cc, rc⟩ := p
  cases cc
  case ignoredPlacementPtrParameter => cases h; exact .inl ⟨rfl, rfl⟩
  case none =>
    cases h; exact .inr ⟨.leaf a, rfl, ⟨rfl, by rintro _ _ (_ | _ | _) <;> rfl⟩, rfl⟩
  case fromReturnValueToPlacementPtr => cases h; exact .inr ⟨.leaf a, rfl, ⟨rfl, by rintro _ _ ⟨⟩; rfl⟩, rfl⟩
  case fromPointerToReference =>
    cases h
    exact .inr ⟨.paren (.deref (.leaf a)), congrArg some (render_star _), ⟨rfl, by rintro _ _ ⟨⟩; rfl⟩, rfl⟩
  case move => cases h; exact .inr ⟨.move (.leaf a), rfl, ⟨rfl, by rintro _ _ ⟨⟩; rfl⟩, rfl⟩
  case fromUniquePtrToValue =>
    cases h
    exact .inr ⟨.move (.deref (.leaf a)), congrArg some (render_moved _),
      ⟨rfl, by rintro _ _ ⟨⟩; rfl⟩, rfl⟩
  case fromPtrToMove =>
    cases h
    exact .inr ⟨.move (.deref (.leaf a)), congrArg some (render_moved _),
      ⟨rfl, by rintro _ _ ⟨⟩; rfl⟩, rfl⟩
  case fromPtrToValue =>
    cases h
    cases isReturn with
    | true => exact .inr ⟨.deref (.leaf a), rfl, ⟨rfl, by rintro _ _ ⟨⟩; rfl⟩, rfl⟩
    | false =>
      exact .inr ⟨.move (.deref (.leaf a)), congrArg some (render_moved _),
        ⟨rfl, by rintro _ _ ⟨⟩; rfl⟩, rfl⟩
  case fromValueToUniquePtr =>
    obtain ⟨s, _, h⟩ := Outcome.bind_ok h
    cases h
    exact .inr ⟨.makeUnique s (.leaf a), rfl, ⟨rfl, by rintro _ _ ⟨⟩; rfl⟩, rfl⟩
  case fromReferenceToPointer => cases h; exact .inr ⟨.addr (.leaf a), rfl, ⟨rfl, by rintro _ _ ⟨⟩; rfl⟩, rfl⟩

/-- The object something is or leads to. -/
def CHeld.target : CHeld → Nat
  | .object o | .pointer o | .owner o => o

/-- The object something is, leads to or was made from. -/
def CVal.target : CVal → Nat
  | .object o | .movable o | .pointer o | .owner o | .newOwner o => o

/-- C26: no conversion loses the object: what is passed on is the object which was given, or leads to it, or is made from
it. -/
theorem conversion_keeps_object {α : Type} {r : Bool} {c : CppConversionType} {a : α} {e : CExpr α}
    (hd : Delivers r c a e) {h : CHeld} {v : CVal} (ht : Turns r c h v) : ∃ w, e.eval h = some w ∧ w.target = h.target :=
  ⟨v, hd.turns ht, by cases ht <;> rfl⟩

/-! ## Calls and functions -/

/-- A call. -/
inductive CCall where
  | method (obj : CExpr String) (name : String) (args : List (CExpr String))
  | function (path : List String) (args : List (CExpr String))
  | construct (place : CExpr String) (type : String) (args : List (CExpr String))
  | destroy (obj : CExpr String) (type : String)
  | destroyAs (using_ : String) (obj : CExpr String) (type : String)
  | destroyNested (path : String) (obj : CExpr String) (type : String)
  | convert (e : CExpr String)
  | allocate (type : String)
  | release (type : String) (e : CExpr String)
  /-- A function in Rust, given the Rust side of this object first. -/
  | rust (fn : String) (args : List (CExpr String))

/-- How arguments are written. -/
def renderArgs (l : List (CExpr String)) : String := joinWith ", " (l.map (CExpr.render id))

/-- How a destructor is called. -/
def renderDestroy (o : CExpr String) (t : String) : String := o.render id ++ "->" ++ t ++ "::~" ++ t ++ "()"

/-- How a call is written. -/
def CCall.render : CCall → String
  | .method o n args => o.render id ++ "." ++ n ++ "(" ++ renderArgs args ++ ")"
  | .function path args => joinCC path ++ "(" ++ renderArgs args ++ ")"
  | .construct p t args => "new (" ++ p.render id ++ ") " ++ t ++ "(" ++ renderArgs args ++ ")"
  | .destroy o t => renderDestroy o t
  | .destroyAs u o t => "{ using " ++ u ++ "; " ++ renderDestroy o t ++ "; }"
  | .destroyNested path o t =>
    "{ using " ++ t ++ " = " ++ path ++ "; " ++ renderDestroy o t ++ "; " ++ t ++ "* pointless; (void)pointless; }"
  | .convert e => e.render id
  | .allocate t => "new_appropriately<" ++ t ++ ">();"
  | .release t e => "delete_appropriately<" ++ t ++ ">(" ++ e.render id ++ ");"
  | .rust fn args => fn ++ "(" ++ joinWith "," ("*obs" :: args.map (CExpr.render id)) ++ ")"

/-- What a function does. -/
inductive CStmt where
  | run (c : CCall)
  | ret (e : CExpr CCall)
  | emplace (place : String) (type : String) (e : CExpr CCall)

/-- How a statement is written. -/
def CStmt.render : CStmt → String
  | .run c => c.render ++ ";"
  | .ret e => "return " ++ e.render CCall.render ++ ";"
  | .emplace p t e => "new(" ++ p ++ ") " ++ t ++ "(" ++ e.render CCall.render ++ ");"

/-- A function in a header. -/
structure CFunction where
  ret : String
  name : String
  params : List (String × String)
  isConst : Bool
  body : CStmt

/-- How a function in a header is written. -/
def CFunction.render (f : CFunction) : String :=
  "inline " ++ f.ret ++ " " ++ (f.name ++ "(" ++ joinWith ", " (f.params.map fun p => p.1 ++ " " ++ p.2) ++ ")" ++
    (if f.isConst then " const" else "")) ++ " " ++ ("" ++ " { " ++ f.body.render ++ " }")

/-! ## Taking the generator apart -/

theorem mapOutcome_ok {α β : Type} {f : α → Outcome β} : ∀ {l : List α} {bs : List β},
    mapOutcome f l = .ok bs ↔ All2 (fun a b => f a = .ok b) l bs := by
  intro l
  induction l with
  | nil =>
    intro bs
    constructor
    · intro h; cases h; exact .nil
    · intro h; cases h; rfl
  | cons a l ih =>
    intro bs
    constructor
    · intro h
      rw [mapOutcome] at h
      obtain ⟨b, h1, h⟩ := Outcome.bind_ok h
      obtain ⟨bs', h2, h⟩ := Outcome.bind_ok h
      cases h
      exact .cons h1 (ih.1 h2)
    · intro h
      cases h with
      | cons h1 h2 =>
        rw [mapOutcome, h1]
        show (mapOutcome f l).bind _ = _
        rw [ih.2 h2]
        rfl

/-- What happens in `generate_cpp_function_inner` when it succeeds. -/
structure GenSteps (m : CppNameMap) (d : CppFunction) (avoidThis : Bool) (dir : ConversionDirection) (rd : Bool)
    (force : Option String) (e : ExtraCpp) where
  args : List String
  ret : String
  values : List (Option String)
  call : String
  fields : String
  allocators : Bool
  final : String
  hargs : All2 (fun p s => cppParam m dir (d.isAMethod avoidThis) p = .ok s) d.argumentConversion.zipIdx args
  hret : cppRetType m dir d = .ok ret
  hvalues : All2 (fun p s => cppArgValue m dir (d.isAMethod avoidThis) p = .ok s) d.argumentConversion.zipIdx values
  hcall : payloadCall m (if d.isAMethod avoidThis then (values.filterMap id).head? else none)
    (callArgs d (d.isAMethod avoidThis) (values.filterMap id)) d.payload = .ok (call, fields, allocators)
  hfinal : cppResult m dir (placementParam (d.isAMethod avoidThis) d.argumentConversion.zipIdx) call d.returnConversion =
    .ok final
  he : e = assembleCpp d rd ret (cppSignature d (force.getD d.wrapperFunctionName) args) (cppBody d fields final) allocators

theorem gen_steps {m : CppNameMap} {d : CppFunction} {avoidThis : Bool} {dir : ConversionDirection} {rd : Bool}
    {force : Option String} {e : ExtraCpp} (h : generateCppFunctionInner m d avoidThis dir rd force = .ok e) :
    Nonempty (GenSteps m d avoidThis dir rd force e) := by
  rw [generateCppFunctionInner] at h
  obtain ⟨args, h1, h⟩ := Outcome.bind_ok h
  obtain ⟨ret, h2, h⟩ := Outcome.bind_ok h
  obtain ⟨values, h3, h⟩ := Outcome.bind_ok h
  obtain ⟨⟨call, fields, al⟩, h4, h⟩ := Outcome.bind_ok h
  obtain ⟨final, h5, h⟩ := Outcome.bind_ok h
  cases h
  exact ⟨⟨args, ret, values, call, fields, al, final, mapOutcome_ok.1 h1, h2, mapOutcome_ok.1 h3, h4, h5, rfl⟩⟩

/-! ## C25: signatures -/

/-- The type of a result as C++ has it. -/
def ResultSpelling (name : QName → String) : Option Ty → String → Prop
  | none, s => s = "void"
  | some t, s => CxxSpelling name t s

theorem All2.of_map_left {α β γ : Type} {R : β → γ → Prop} {f : α → β} : ∀ {l : List α} {r : List γ},
    All2 (fun a c => R (f a) c) l r → All2 R (l.map f) r := by
  intro l r h
  induction h with
  | nil => exact .nil
  | cons h _ ih => exact .cons h ih

/-- The names of the parameters of a function in C++. -/
def paramNames (isMethod : Bool) (n k : Nat) : List String := (List.range' k n).map (cppArgName isMethod)

theorem cppArgName_inj {b : Bool} {i j : Nat} (h : cppArgName b i = cppArgName b j) : i = j := by
  have pre : ∀ n : Nat, "arg" ++ toString n ≠ "autocxx_gen_this" := by
    intro n e
    have := congrArg (fun s => (String.toList s)[1]?) e
    simp [String.toList_append] at this
  rw [cppArgName, cppArgName] at h
  split at h <;> split at h
  · rename_i h1 h2
    simp only [Bool.and_eq_true, decide_eq_true_eq] at h1 h2
    rw [h1.2, h2.2]
  · exact absurd h.symm (pre _)
  · exact absurd h (pre _)
  · exact Nat.repr_injective ((String.append_right_inj _).1 h)

theorem paramNames_nodup (b : Bool) (n k : Nat) : (paramNames b n k).Nodup := by
  rw [paramNames]
  exact List.Nodup.map_on (fun _ _ _ _ h => cppArgName_inj h) List.nodup_range'

/-- The parameters as written, from the types as written. -/
theorem params_written {m : CppNameMap} {dir : ConversionDirection} {b : Bool} : ∀ {l : List TypeConversionPolicy}
    {k : Nat} {args : List String}, All2 (fun p s => cppParam m dir b p = .ok s) (l.zipIdx k) args →
    ∃ types, All2 (fun p t => cppArgType m dir p = .ok t) l types ∧
      args = (types.zip (paramNames b l.length k)).map fun p => p.1 ++ " " ++ p.2 := by
  intro l
  induction l with
  | nil => intro k args h; cases h; exact ⟨[], .nil, rfl⟩
  | cons p l ih =>
    intro k args h
    rw [List.zipIdx_cons] at h
    cases h with
    | cons h1 h2 =>
      rw [cppParam] at h1
      obtain ⟨t, h0, h3⟩ := Outcome.bind_ok h1
      cases h3
      obtain ⟨ts, h4, rfl⟩ := ih h2
      refine ⟨t :: ts, .cons h0 h4, ?_⟩
      simp [paramNames, List.range'_succ]

/-! ## C26: what is passed on -/

/-- The parameters which are passed on, with their names: all but the place for the result. -/
def passedOn (l : List TypeConversionPolicy) (names : List String) : List (TypeConversionPolicy × String) :=
  (l.zip names).filter fun p => !p.1.isPlacementParameter

theorem values_written {m : CppNameMap} {b : Bool} : ∀ {l : List TypeConversionPolicy} {k : Nat}
    {values : List (Option String)},
    All2 (fun p s => cppArgValue m .rustCallsCpp b p = .ok s) (l.zipIdx k) values →
    ∃ es : List (CExpr String), values.filterMap id = es.map (CExpr.render id) ∧
      All2 (fun p e => Delivers false p.1.cppConversion p.2 e) (passedOn l (paramNames b l.length k)) es := by
  intro l
  induction l with
  | nil => intro k values h; cases h; exact ⟨[], rfl, .nil⟩
  | cons p l ih =>
    intro k values h
    rw [List.zipIdx_cons] at h
    cases h with
    | cons h1 h2 =>
      obtain ⟨es, h3, h4⟩ := ih h2
      have hn : paramNames b (p :: l).length k = cppArgName b k :: paramNames b l.length (k + 1) := by
        simp [paramNames, List.range'_succ]
      rcases convert_expr id h1 with ⟨rfl, hp⟩ | ⟨e, rfl, hd, hp⟩
      · refine ⟨es, by simpa using h3, ?_⟩
        rw [hn, passedOn, List.zip_cons_cons, List.filter_cons, if_neg (by simpa using hp)]
        exact h4
      · refine ⟨e :: es, by simpa using h3, ?_⟩
        rw [hn, passedOn, List.zip_cons_cons, List.filter_cons, if_pos (by simpa using hp)]
        exact .cons hd h4

/-- What is called for each purpose, with which arguments. A method's object, and the place for a new object, are the
first argument. -/
inductive CallsFor (m : CppNameMap) : CppFunctionBody → Bool → List (CExpr String) → CCall → Prop
  | method {ns : List String} {id : String} {o : CExpr String} {args : List (CExpr String)} :
      CallsFor m (.functionCall ns id) true (o :: args) (.method o id args)
  | function {ns : List String} {id : String} {args : List (CExpr String)} :
      CallsFor m (.functionCall ns id) false args (.function (ns ++ [id]) args)
  | static {ns : List String} {ty id : String} {args : List (CExpr String)} :
      CallsFor m (.staticMethodCall ns ty id) false args (.function (ns ++ [ty, id]) args)
  | construct {ns : List String} {id : String} {o : CExpr String} {args : List (CExpr String)} :
      CallsFor m (.placementNew ns id) true (o :: args) (.construct o (m.map ⟨ns, id⟩) args)
  | destroy {id : String} {o : CExpr String} :
      CallsFor m (.destructor [] id) false [o] (.destroy o (m.getFinalItem ⟨[], id⟩))
  | destroyAs {ns : List String} {id : String} {o : CExpr String} (hn : ns ≠ []) (hm : AMap.get? m ⟨ns, id⟩ = none) :
      CallsFor m (.destructor ns id) false [o] (.destroyAs (m.map ⟨ns, id⟩) o (m.getFinalItem ⟨ns, id⟩))
  | destroyNested {ns : List String} {id : String} {o : CExpr String} (hn : ns ≠ []) {c : String}
      (hm : AMap.get? m ⟨ns, id⟩ = some c) :
      CallsFor m (.destructor ns id) false [o] (.destroyNested (m.map ⟨ns, id⟩) o (m.getFinalItem ⟨ns, id⟩))
  | convert {e : CExpr String} : CallsFor m .cast false [e] (.convert e)
  | allocate {ty : QName} : CallsFor m (.allocUninitialized ty) false [] (.allocate (m.map ty))
  | release {ty : QName} : CallsFor m (.freeUninitialized ty) false [.leaf "arg0"] (.release (m.map ty) (.leaf "arg0"))

/-- What becomes of the result of the call: it is returned, or put in the place given for it, or there is none. -/
inductive ResultFor (m : CppNameMap) (c : CCall) (place : Option String) : Option TypeConversionPolicy → CStmt → Prop
  | none : ResultFor m c place none (.run c)
  | ret {p : TypeConversionPolicy} {e : CExpr CCall} (hp : place = Option.none)
      (he : Delivers true p.cppConversion c e) : ResultFor m c place (some p) (.ret e)
  | emplace {p : TypeConversionPolicy} {e : CExpr CCall} {v t : String} (hp : place = some v)
      (he : Delivers true p.cppConversion c e) (ht : m.typeToCpp p.unwrappedType = .ok t) :
      ResultFor m c place (some p) (.emplace v t e)

/-- The number of parameters fits what the function is for. -/
def PayloadFits (d : CppFunction) : Prop :=
  d.passObsField = false ∧ match d.payload with
  | .destructor .. | .cast => d.isAMethod false = false ∧
      (d.argumentConversion.filter fun p => !p.isPlacementParameter).length = 1
  | .functionCall .. => d.isAMethod false = true → (d.argumentConversion.filter fun p => !p.isPlacementParameter) ≠ []
  | .staticMethodCall .. => d.isAMethod false = false
  | .placementNew .. => d.isAMethod false = true
  | .allocUninitialized _ => d.isAMethod false = false ∧ d.argumentConversion = []
  | .freeUninitialized _ => d.isAMethod false = false ∧ ∃ t r, d.argumentConversion = [⟨t, .none, r⟩]
  | .constructSuperclass _ => False

theorem All2.filter_zip_length {l : List TypeConversionPolicy} {names : List String} (h : names.length = l.length) :
    (passedOn l names).length = (l.filter fun p => !p.isPlacementParameter).length := by
  induction l generalizing names with
  | nil => simp [passedOn]
  | cons p l ih =>
    cases names with
    | nil => cases h
    | cons n names =>
      have := ih (Nat.succ.inj h)
      rw [passedOn] at this ⊢
      rw [List.zip_cons_cons, List.filter_cons, List.filter_cons]
      cases p.isPlacementParameter <;> simp [this]

theorem paramNames_length (b : Bool) (n k : Nat) : (paramNames b n k).length = n := by simp [paramNames]

theorem callArgs_plain {d : CppFunction} {b : Bool} {es : List (CExpr String)} (ho : d.passObsField = false)
    (hp : d.payload.isConstructSuperclass = false) :
    callArgs d b (es.map (CExpr.render id)) = renderArgs (if b then es.drop 1 else es) := by
  rw [callArgs, ho, hp]
  simp only [Bool.false_eq_true, if_false, renderArgs]
  cases b <;> simp [List.map_drop]

theorem call_written {m : CppNameMap} {d : CppFunction} {es : List (CExpr String)} {call fields : String} {al : Bool}
    (hf : PayloadFits d) (hl : es.length = (d.argumentConversion.filter fun p => !p.isPlacementParameter).length)
    (hfree : ∀ ty, d.payload = .freeUninitialized ty → es = [.leaf "arg0"])
    (h : payloadCall m (if d.isAMethod false then (es.map (CExpr.render id)).head? else none)
      (callArgs d (d.isAMethod false) (es.map (CExpr.render id))) d.payload = .ok (call, fields, al)) :
    ∃ c, CallsFor m d.payload (d.isAMethod false) es c ∧ call = c.render := by
  obtain ⟨ho, hf⟩ := hf
  have ha : ∀ (_ : d.payload.isConstructSuperclass = false), callArgs d (d.isAMethod false) (es.map (CExpr.render id)) =
      renderArgs (if d.isAMethod false then es.drop 1 else es) := fun hp => callArgs_plain ho hp
  generalize callArgs d (d.isAMethod false) (es.map (CExpr.render id)) = args at h ha
  generalize d.isAMethod false = b at h ha hf ⊢
  cases hp : d.payload with
  | functionCall ns id =>
    rw [hp] at hf h ha
    have ha := ha rfl
    subst ha
    cases b with
    | false => cases h; exact ⟨_, .function, rfl⟩
    | true =>
      cases es with
      | nil =>
        exact absurd (List.eq_nil_of_length_eq_zero hl.symm) (hf rfl)
      | cons o es => cases h; exact ⟨_, .method, rfl⟩
  | staticMethodCall ns ty id =>
    rw [hp] at hf h ha
    have ha := ha rfl
    subst ha
    dsimp only at hf
    subst hf
    cases h; exact ⟨_, .static, rfl⟩
  | placementNew ns id =>
    rw [hp] at hf h ha
    have ha := ha rfl
    subst ha
    dsimp only at hf
    subst hf
    cases es with
    | nil => cases h
    | cons o es => cases h; exact ⟨_, .construct, rfl⟩
  | constructSuperclass sup => rw [hp] at hf; cases hf
  | cast =>
    rw [hp] at hf h ha
    have ha := ha rfl
    subst ha
    dsimp only at hf
    obtain ⟨rfl, hf⟩ := hf
    rw [hf] at hl
    obtain ⟨e, rfl⟩ := List.length_eq_one_iff.1 hl
    cases h; exact ⟨_, .convert, rfl⟩
  | destructor ns id =>
    rw [hp] at hf h ha
    have ha := ha rfl
    subst ha
    dsimp only at hf
    obtain ⟨rfl, hf⟩ := hf
    rw [hf] at hl
    obtain ⟨e, rfl⟩ := List.length_eq_one_iff.1 hl
    rw [payloadCall, destructorCall] at h
    cases ns with
    | nil => cases h; exact ⟨_, .destroy, rfl⟩
    | cons n ns =>
      rw [if_neg (by simp)] at h
      cases hm : AMap.get? m ⟨n :: ns, id⟩ with
      | none => rw [hm] at h; cases h; exact ⟨_, .destroyAs (by simp) hm, rfl⟩
      | some c => rw [hm] at h; cases h; exact ⟨_, .destroyNested (by simp) hm, rfl⟩
  | allocUninitialized ty =>
    rw [hp] at hf h ha
    dsimp only at hf
    obtain ⟨rfl, hf⟩ := hf
    rw [hf] at hl
    cases List.eq_nil_of_length_eq_zero hl
    cases h; exact ⟨_, .allocate, rfl⟩
  | freeUninitialized ty =>
    have := hfree ty hp
    rw [hp] at hf h ha
    dsimp only at hf
    obtain ⟨rfl, hf⟩ := hf
    rw [this]
    cases h
    refine ⟨_, .release, ?_⟩
    show _ = "delete_appropriately<" ++ m.map ty ++ ">(" ++ "arg0" ++ ");"
    rw [show ">(arg0);" = ">(" ++ "arg0" ++ ");" from by decide]
    simp only [String.append_assoc]

theorem result_written {m : CppNameMap} {c : CCall} {place : Option String} {r : Option TypeConversionPolicy}
    {final : String} (h : cppResult m .rustCallsCpp place c.render r = .ok final) :
    ∃ st, ResultFor m c place r st ∧ final ++ ";" = st.render := by
  cases r with
  | none => cases h; exact ⟨_, .none, rfl⟩
  | some p =>
    rw [cppResult, cppReturn] at h
    obtain ⟨x, h1, h⟩ := Outcome.bind_ok h
    rcases convert_expr CCall.render h1 with ⟨rfl, _⟩ | ⟨e, rfl, hd, _⟩
    · cases h
    · cases place with
      | none => cases h; exact ⟨_, .ret rfl hd, rfl⟩
      | some v =>
        obtain ⟨t, h2, h⟩ := Outcome.bind_ok h
        cases h
        refine ⟨_, .emplace rfl hd h2, ?_⟩
        rw [CStmt.render]
        simp only [String.append_assoc]
        rfl

/-- The name of the parameter for the place of the result. -/
def placeOf (l : List TypeConversionPolicy) (names : List String) : Option String :=
  ((l.zip names).find? fun p => p.1.isPlacementParameter).map (·.2)

theorem place_written {b : Bool} : ∀ {l : List TypeConversionPolicy} {k : Nat},
    placementParam b (l.zipIdx k) = placeOf l (paramNames b l.length k) := by
  intro l
  induction l with
  | nil => intro k; rfl
  | cons p l ih =>
    intro k
    have hn : paramNames b (p :: l).length k = cppArgName b k :: paramNames b l.length (k + 1) := by
      simp [paramNames, List.range'_succ]
    rw [hn, placementParam, placeOf, List.zipIdx_cons, List.zip_cons_cons, List.find?_cons, List.find?_cons]
    cases hp : p.isPlacementParameter with
    | true => rfl
    | false => exact ih

theorem ne_append_left {a b : String} (h : a ≠ "") : a ++ b ≠ "" := by
  intro e
  have := congrArg String.toList e
  rw [String.toList_append] at this
  exact h (String.toList_inj.1 (List.append_eq_nil_iff.1 this).1)

theorem ne_append_right {a b : String} (h : b ≠ "") : a ++ b ≠ "" := by
  intro e
  have := congrArg String.toList e
  rw [String.toList_append] at this
  exact h (String.toList_inj.1 (List.append_eq_nil_iff.1 this).2)

theorem CExpr.render_ne {e : CExpr String} (h : e.uses ≠ "") : e.render id ≠ "" := by
  induction e with
  | leaf a => exact h
  | deref | addr => exact ne_append_left (by decide)
  | _ => exact ne_append_right (by decide)

theorem call_ne {m : CppNameMap} {p : CppFunctionBody} {b : Bool} {es : List (CExpr String)} {c : CCall}
    (h : CallsFor m p b es c) (hu : ∀ e ∈ es, e.uses ≠ "") : c.render ≠ "" := by
  cases h with
  | convert => exact CExpr.render_ne (hu _ (by simp))
  | _ => exact ne_append_right (by decide)

theorem argName_ne {b : Bool} {i : Nat} : cppArgName b i ≠ "" := by
  rw [cppArgName]
  split
  · decide
  · exact ne_append_left (by decide)

theorem All2.forall_right {α β : Type} {R : α → β → Prop} {l : List α} {r : List β} (h : All2 R l r) {P : β → Prop}
    (hp : ∀ a ∈ l, ∀ b, R a b → P b) : ∀ b ∈ r, P b := by
  induction h with
  | nil => intro b hb; cases hb
  | cons h _ ih =>
    intro b hb
    rcases List.mem_cons.1 hb with rfl | hb
    · exact hp _ (by simp) _ h
    · exact ih (fun a ha => hp a (by simp [ha])) b hb

theorem All2.length_eq {α β : Type} {R : α → β → Prop} {l : List α} {r : List β} (h : All2 R l r) :
    l.length = r.length := by
  induction h with
  | nil => rfl
  | cons _ _ ih => simp [ih]

/-- The C++ function made for calls from Rust: under its name in the bridge, it takes what the bridge says it is given and
returns what the bridge says Rust gets; it passes on each argument, but for the place of the result, once and in order,
converted as was decided; and it returns what was returned to it, converted as was decided, or puts it in the place
given. -/
structure Generated (m : CppNameMap) (d : CppFunction) (e : ExtraCpp) (fn : CFunction) (es : List (CExpr String))
    (c : CCall) : Prop where
  text : e.declaration = some fn.render ∧ e.definition = none ∧ e.typeDefinition = none
  name : fn.name = d.wrapperFunctionName
  isConst : fn.isConst = true ↔ d.kind = .constMethod
  types : All2 (CxxSpelling m.map) (d.argumentConversion.map (·.convertedRustType)) (fn.params.map (·.1))
  distinct : (fn.params.map (·.2)).Nodup
  result : ResultSpelling m.map (d.returnConversion.bind fun c =>
    if c.populateReturnValue then some c.unconvertedRustType else none) fn.ret
  passes : All2 (fun p e => Delivers false p.1.cppConversion p.2 e)
    (passedOn d.argumentConversion (fn.params.map (·.2))) es
  calls : CallsFor m d.payload (d.isAMethod false) es c
  returns : ResultFor m c (placeOf d.argumentConversion (fn.params.map (·.2))) d.returnConversion fn.body

/-- C25, C26: every function made for calls from Rust is so. -/
theorem generated_function {m : CppNameMap} (hp : PinOnly m) {d : CppFunction} {e : ExtraCpp} (hf : PayloadFits d)
    (hk : d.kind ≠ .synthesizedConstructor)
    (h : generateCppFunctionInner m d false .rustCallsCpp false none = .ok e) :
    ∃ fn es c, Generated m d e fn es c := by
  obtain ⟨t⟩ := gen_steps h
  obtain ⟨types, ht, hargs⟩ := params_written t.hargs
  have hv : ∃ es : List (CExpr String), t.values.filterMap id = es.map (CExpr.render id) ∧
      All2 (fun p e => Delivers false p.1.cppConversion p.2 e)
        (passedOn d.argumentConversion (paramNames (d.isAMethod false) d.argumentConversion.length 0)) es ∧
      ∀ ty, d.payload = .freeUninitialized ty → es = [.leaf "arg0"] := by
    by_cases hfree : ∃ ty, d.payload = .freeUninitialized ty
    · obtain ⟨ty, hfree⟩ := hfree
      have hf' := hf.2
      rw [hfree] at hf'
      obtain ⟨hm, t0, r0, hl⟩ := hf'
      have hv := t.hvalues
      rw [hl, hm] at hv
      rw [hl, hm]
      generalize t.values = values at hv ⊢
      match values, hv with
      | _, .cons h1 .nil =>
        cases h1
        have h0 : cppArgName false 0 = "arg0" := by decide
        refine ⟨[.leaf "arg0"], congrArg (fun s => [s]) h0, ?_, fun _ _ => rfl⟩
        have h1 : passedOn [⟨t0, .none, r0⟩] (paramNames false 1 0) = [(⟨t0, .none, r0⟩, "arg0")] := by
          rw [← h0]; rfl
        show All2 _ (passedOn [⟨t0, .none, r0⟩] (paramNames false 1 0)) _
        rw [h1]
        exact .cons ⟨rfl, by rintro _ _ (_ | _ | _) <;> rfl⟩ .nil
    · obtain ⟨es, h1, h2⟩ := values_written t.hvalues
      exact ⟨es, h1, h2, fun ty hty => absurd ⟨ty, hty⟩ hfree⟩
  obtain ⟨es, hvals, hes, hfree⟩ := hv
  have hcall := t.hcall
  rw [hvals] at hcall
  have hlen : es.length = (d.argumentConversion.filter fun p => !p.isPlacementParameter).length := by
    rw [← hes.length_eq]
    exact All2.filter_zip_length (paramNames_length _ _ _)
  obtain ⟨c, hc, hcr⟩ := call_written hf hlen hfree hcall
  have hfin := t.hfinal
  rw [hcr, place_written] at hfin
  obtain ⟨st, hst, hstr⟩ := result_written hfin
  have htl : types.length = (paramNames (d.isAMethod false) d.argumentConversion.length 0).length := by
    rw [paramNames_length, ht.length_eq]
  have hn2 : ((types.zip (paramNames (d.isAMethod false) d.argumentConversion.length 0)).map (·.2)) =
      paramNames (d.isAMethod false) d.argumentConversion.length 0 := by
    rw [← List.unzip_snd, List.unzip_zip_right (by omega)]
  have hn1 : ((types.zip (paramNames (d.isAMethod false) d.argumentConversion.length 0)).map (·.1)) = types := by
    rw [← List.unzip_fst, List.unzip_zip_left (by omega)]
  have hne : t.final ≠ "" := by
    have huse : ∀ e ∈ es, e.uses ≠ "" := by
      refine hes.forall_right ?_
      intro p hp b hb
      rw [hb.uses]
      have := List.mem_of_mem_filter hp
      have := (List.of_mem_zip this).2
      rw [paramNames] at this
      obtain ⟨i, _, hi⟩ := List.mem_map.1 this
      rw [← hi]
      exact argName_ne
    have := call_ne hc huse
    intro h0
    rw [h0] at hstr
    generalize d.returnConversion = r at hst
    cases hst with
    | none =>
      apply this
      rw [CStmt.render] at hstr
      exact ((String.append_left_inj _).1 hstr).symm
    | ret _ _ =>
      have := (String.append_left_inj ";").1 hstr
      exact ne_append_left (by decide) this.symm
    | emplace _ _ _ =>
      rw [CStmt.render, show ");" = ")" ++ ";" from by decide, ← String.append_assoc] at hstr
      have := (String.append_left_inj ";").1 hstr
      exact ne_append_right (by decide) this.symm
  refine ⟨⟨t.ret, d.wrapperFunctionName, types.zip (paramNames (d.isAMethod false) d.argumentConversion.length 0),
    decide (d.kind = .constMethod), st⟩, es, c, ?_, rfl, by simp, ?_, ?_, ?_, ?_, hc, ?_⟩
  · have he1 := congrArg ExtraCpp.declaration t.he
    have he2 := congrArg ExtraCpp.definition t.he
    have he3 := congrArg ExtraCpp.typeDefinition t.he
    refine ⟨he1.trans ?_, he2, he3⟩
    show some _ = some _
    rw [CFunction.render, if_neg (by decide), cppSignature, hargs, cppBody, if_neg hne, ← hstr]
    have hfa : fieldAssignments d.payload t.fields = "" := by
      have := hf.2
      cases hpl : d.payload with
      | constructSuperclass s => rw [hpl] at this; cases this
      | _ => rfl
    rw [hfa]
    simp only [Option.getD_none, decide_eq_true_eq]
  · show All2 _ _ (List.map _ (List.zip _ _))
    rw [hn1]
    apply All2.of_map_left
    exact ht.mono fun a b _ h => argument_types_agree m hp a h
  · show (List.map _ (List.zip _ _)).Nodup
    rw [hn2]
    exact paramNames_nodup _ _ _
  · have hret := t.hret
    rw [cppRetType] at hret
    cases hr : d.returnConversion with
    | none =>
      rw [hr] at hret
      cases hk' : d.kind with
      | synthesizedConstructor => exact absurd hk' hk
      | _ => rw [hk'] at hret; exact (Outcome.ok.inj hret).symm
    | some p =>
      rw [hr] at hret
      dsimp only [Option.bind_some]
      dsimp only at hret
      split
      · rename_i hpop
        rw [if_pos hpop] at hret
        exact return_types_agree m hp p hret
      · rename_i hpop
        rw [if_neg hpop] at hret
        cases hk' : d.kind with
        | synthesizedConstructor => exact absurd hk' hk
        | _ => rw [hk'] at hret; exact (Outcome.ok.inj hret).symm
  · show All2 _ (passedOn _ (List.map _ (List.zip _ _))) _
    rw [hn2]
    exact hes
  · show ResultFor m c (placeOf _ (List.map _ (List.zip _ _))) _ _
    rw [hn2]
    exact hst

end Verif
