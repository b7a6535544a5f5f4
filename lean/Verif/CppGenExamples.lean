import Verif.CppSubProps
import Verif.FnPassExamples

/-!
# Examples of generated C++

What the generator writes for some functions, and where that is wrong.
-/

set_option autoImplicit false
set_option synthInstance.maxSize 1024
set_option synthInstance.maxHeartbeats 200000

namespace Verif

/-- The text of the wrapper of an analysed function. -/
def wrapperText (m : CppNameMap) (a : FnAnalysis) : Option (Outcome (Option String)) :=
  a.cppWrapper.map fun w =>
    (generateCppFunctionInner m w false .rustCallsCpp false none).bind fun e => .ok e.declaration

/-- `Foo give(Foo a, Bar b, const Foo& c)`, where `Bar` is passed by value and `Foo` is not. -/
def exGive : FuncToConvert :=
  { ident := "give", inputs := [.typed "a" exFooTy, .typed "b" exBarTy, .typed "c" (exConstRef exFooTy)],
    output := some exFooTy }

/-- The hypotheses of `wrapper_text` hold of this function; this is its wrapper. -/
theorem give_text : (exAnalysis .allFunctionsSafe false none exGive).map (fun a => (a.ignoreReason, wrapperText [] a)) =
    some (none, some (.ok (some ("inline void give_autocxx_wrapper_0x0(Foo* arg0, Bar arg1, const Foo& arg2, Foo* arg3)  " ++
      "{ new(arg3) Foo(give(std::move(*arg0), arg1, arg2)); }")))) := by
  rw [exAnalysis_lit]
  decide_known


/-- The text of the wrappers of the functions among some items. -/
def wrappersOf (l : List FnPre1Api) : List (Outcome (Option String)) :=
  l.filterMap fun a => match a with
  | .function _ _ a => wrapperText (CppNameMap.ofApis l) a
  | _ => none

/-- `struct A { struct B { static void make(); }; };` -/
def exNestedStatic : List PodApi :=
  [.struct ⟨⟨[], "A"⟩, none⟩ {} {}, .struct ⟨⟨[], "A_B"⟩, some "A::B"⟩ {} {},
   .function ⟨⟨[], "A_B_make"⟩, some "make"⟩ { ident := "A_B_make", selfTy := some ⟨[], "A_B"⟩, inputs := [] } ()]

/-- **C65 is false** for static methods of nested classes: they are called as if the name bindgen gives the class were its
name in C++. -/
theorem nested_static_call_false :
    (exSteps .allFunctionsSafe exNestedStatic).map wrappersOf =
      some [.ok (some "inline void make_autocxx_wrapper_0x0()  { A_B::make(); }")] ∧
    (exSteps .allFunctionsSafe exNestedStatic).map (fun l => (CppNameMap.ofApis l).map ⟨[], "A_B"⟩) = some "A::B" := by
  rw [exSteps_lit]
  constructor <;> decide_known

theorem joinCC_snoc : ∀ (l : List String) (a b : String), joinCC (l ++ [a, b]) = joinCC (l ++ [a]) ++ "::" ++ b
  | [], _, _ => rfl
  | [x], a, b => by
    show x ++ "::" ++ (a ++ "::" ++ b) = x ++ "::" ++ a ++ "::" ++ b
    simp only [String.append_assoc]
  | x :: y :: l, a, b => by
    have := joinCC_snoc (y :: l) a b
    show x ++ "::" ++ joinCC (y :: l ++ [a, b]) = x ++ "::" ++ joinCC (y :: l ++ [a]) ++ "::" ++ b
    rw [this]
    simp only [String.append_assoc]

/-- C65: for a class which is not nested, and not one `cxx` knows under another name, the function called is that of the class, by its name in C++. What is missing
are nested classes (`nested_static_call_false`). -/
theorem static_call_names_class_partial {m : CppNameMap} {q : QName} (hm : AMap.get? m q = none)
    (hk : specialCppName q = none) (called : String) :
    joinCC (q.ns ++ [q.name, called]) = m.map q ++ "::" ++ called := by
  rw [joinCC_snoc, CppNameMap.map, hm]
  show _ = q.toCppName ++ _ ++ _
  rw [QName.toCppName, hk]
  rfl


/-! ## Overrides -/

/-- `class Base { virtual void on(T x); }` with a subclass `MySub` in Rust, as it comes from bindgen. -/
def exOverride (t : Ty) : List PodApi :=
  [.struct ⟨⟨[], "Base"⟩, none⟩ {} {}, .struct ⟨⟨[], "Bar"⟩, none⟩ {} { kind := .pod },
   .subclass ⟨⟨[], "MySub"⟩, none⟩ ⟨[], "Base"⟩,
   .function ⟨⟨[], "Base_on"⟩, some "on"⟩
     { ident := "Base_on", selfTy := some ⟨[], "Base"⟩, virtualness := some .virtual,
       inputs := [.typed "this" (.ptr true (.path ["root", "Base"] [])), .typed "x" t] } ()]

/-- What is declared within the class of a subclass, and what is defined outside, for the overrides among some items. -/
def overrideTexts (l : List FnPre1Api) : List (Outcome (List String × List (Option String))) :=
  l.filterMap fun a => match a with
  | .rustSubclassFn _ _ d =>
    some ((subclassMethodCpp (CppNameMap.ofApis l) d.superclass ⟨d.cppImpl, d.isPureVirtual⟩).bind fun r =>
      .ok (r.1, r.2.map (·.definition)))
  | _ => none

/-- The hypotheses of `override_types_partial` hold of this method: its overrides take `const Bar&`. -/
theorem override_reference : (exSteps .allFunctionsSafe (exOverride (exConstRef exBarTy))).map overrideTexts =
    some [.ok (["void on(const Bar& arg0);", "inline void on_super(const Bar& arg0)  { Base::on(arg0); }"],
      [some "void MySubCpp::on(const Bar& arg0)  { MySub_on_autocxx_wrapper_0x0(*obs,arg0); }", none])] := by
  rw [exSteps_lit]
  decide_known

/-- **C66 is false** where references are wrapped: the override of `virtual void on(const Bar&)` takes a pointer, so that
it does not override the method, and gives Rust a pointer to a pointer. -/
theorem override_wrapped_false :
    (exSteps .referencesWrappedAllFunctionsSafe (exOverride (exConstRef exBarTy))).map overrideTexts =
      some [.ok (["void on(const Bar* arg0);", "inline void on_super(const Bar* arg0)  { Base::on(arg0); }"],
        [some "void MySubCpp::on(const Bar* arg0)  { MySub_on_autocxx_wrapper_0x0(*obs,&arg0); }", none])] := by
  rw [exSteps_lit]
  decide_known

/-- **C66 is false** for rvalue references: the override of `virtual void on(Bar&&)` takes `Bar`. -/
theorem override_rvalue_false :
    (exSteps .allFunctionsSafe (exOverride (.path ["__bindgen_marker_RValueReference"] [.ptr true exBarTy]))).map
      overrideTexts =
      some [.ok (["void on(Bar arg0);", "inline void on_super(Bar arg0)  { Base::on(arg0); }"],
        [some "void MySubCpp::on(Bar arg0)  { MySub_on_autocxx_wrapper_0x0(*obs,std::make_unique<Bar>(arg0)); }", none])] := by
  rw [exSteps_lit]
  decide_known

/-- **C51, C66 are false** for owners passed by value: the override of `virtual void on(std::unique_ptr<Bar>)` is accepted
by the analysis, and the generator panics. -/
theorem override_owner_false :
    (exSteps .allFunctionsSafe (exOverride (.path ["root", "std", "unique_ptr"] [exBarTy]))).map
      (fun l => (overrideTexts l, reasonsOf l)) =
      some ([.panic], [("on_super_autocxx_wrapper_0x0", none), ("on_autocxx_wrapper_0x0", none)]) := by
  rw [exSteps_lit]
  decide_known

end Verif
