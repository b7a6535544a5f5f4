import Verif.FnExamples
import Verif.FnPassProps
import Verif.TrackersProps

/-!
# Function analysis of whole lists of items

Examples of the pass over all functions, and where it loses or spoils something.
-/

set_option autoImplicit false
set_option synthInstance.maxSize 1024
set_option synthInstance.maxHeartbeats 200000

namespace Verif

/-- The analysis of the functions in a list of items, given the environment. -/
def exStepsIn (apis : List PodApi) : Option (FnEnv × FnState) → Option (List FnPre1Api)
  | none => none
  | some (env, s) =>
    match fnSteps env s apis with
    | .done (_, l) => some (ApiVec.fromIter l).apis
    | _ => none

/-- The items after the analysis of the functions in a list of items. -/
def exSteps (p : UnsafePolicy) (apis : List PodApi) : Option (List FnPre1Api) :=
  exStepsIn apis (FnEnv.ofApis 8 (fun _ => 0) p (exFnCfg p) false apis)

theorem exSteps_lit (p : UnsafePolicy) (apis : List PodApi) : exSteps p apis = exStepsIn apis (exEnvLit p apis) := by
  have e : moveitSafeTypes = moveitSafeLit := by
    unfold moveitSafeTypes moveitSafeLit knownGet; rw [knownTypes_eq_lit]
  rw [exSteps, FnEnv.ofApis, podSafeTypes_eq_lit, e, exEnvLit]

/-- `class Base { virtual void on(T x) = 0; }` with a subclass `MySub` in Rust. -/
def exSubApis (v : Virtualness) (t : Ty) (vis : CppVisibility) : List PodApi :=
  [.struct ⟨⟨[], "Base"⟩, none⟩ {} {}, .struct ⟨⟨[], "Bar"⟩, none⟩ {} { kind := .pod },
   .subclass ⟨⟨[], "MySub"⟩, none⟩ ⟨[], "Base"⟩,
   .function ⟨⟨[], "on"⟩, none⟩
     { ident := "on", selfTy := some ⟨[], "Base"⟩, virtualness := some v, cppVis := vis,
       inputs := [.typed "this" (.ptr true (.path ["root", "Base"] [])), .typed "x" t] } ()]

/-- What comes out of `exSteps` comes out of the analysis of the functions, from the state the pass starts in. -/
theorem exSteps_real {p : UnsafePolicy} {apis : List PodApi} {l : List FnPre1Api} (h : exSteps p apis = some l) :
    ∃ env s s' out, FnEnv.ofApis 8 (fun _ => 0) p (exFnCfg p) false apis = some (env, s) ∧
      fnSteps env s apis = .done (s', out) ∧ l = (ApiVec.fromIter out).apis := by
  rw [exSteps] at h
  revert h
  generalize FnEnv.ofApis 8 (fun _ => 0) p (exFnCfg p) false apis = r
  intro h
  rw [exStepsIn.eq_def] at h
  split at h
  · cases h
  · rename_i env s
    split at h
    · rename_i s' out hr
      cases h
      exact ⟨env, s, s', out, rfl, hr, rfl⟩
    · cases h

/-- `virtual void on(Bar x)` gets an override, a function with which Rust code reaches the method of the superclass, and a
trait item; for a pure virtual method there is nothing to reach. -/
example : (exSteps .allFunctionsSafe (exSubApis .virtual exBarTy .pub)).map (·.map (·.name.name)) =
    some ["Base", "Bar", "MySub", "on_super", "MySub_on_autocxx_wrapper_0x0", "Base_on_trait_item",
      "on_autocxx_wrapper_0x0"] := by
  rw [exSteps_lit]; decide_known

example : (exSteps .allFunctionsSafe (exSubApis .pureVirtual exBarTy .pub)).map (·.map (·.name.name)) =
    some ["Base", "Bar", "MySub", "MySub_on_autocxx_wrapper_0x0", "Base_on_trait_item", "on_autocxx_wrapper_0x0"] := by
  rw [exSteps_lit]; decide_known

/-- The name of a parameter. -/
def argText : FnArg → Ident
  | .typed n _ => n
  | .receiver _ => "self"

/-- The parameters of the overrides among some items, and what they depend on. -/
def overridesOf (l : List FnPre1Api) : List (List Ident × List QName) := l.filterMap fun a => match a with
  | .rustSubclassFn _ _ d => some (d.params.map argText, d.dependencies)
  | _ => none

/-- The reasons why functions are not offered. -/
def reasonsOf (l : List FnPre1Api) : List (Ident × Option Err) := l.filterMap fun a => match a with
  | .function n _ a => some (n.name.name, a.ignoreReason.map (·.err))
  | _ => none

/-- A pure virtual method with a parameter which can't be converted, such as `virtual void on(Bar **x) = 0`, is not
offered, and the reason is given; but the subclass gets an override which lacks that parameter and depends on nothing
that is given up. So C++ code which overrides nothing is generated. -/
theorem override_loses_parameter_witness :
    (exSteps .allFunctionsSafe (exSubApis .pureVirtual (.ptr true (.ptr true exBarTy)) .pub)).map
      (fun l => (overridesOf l, reasonsOf l)) =
    some ([(["me"], [⟨[], "Base_on_trait_item"⟩])],
      [("on_autocxx_wrapper_0x0", some (.argument "x" .invalidPointerPointee))]) := by
  rw [exSteps_lit]; decide_known

/-- If the method has an implementation, the override depends on the function which calls it, which is given up for the
same reason. -/
example : (exSteps .allFunctionsSafe (exSubApis .virtual (.ptr true (.ptr true exBarTy)) .pub)).map
      (fun l => (overridesOf l, reasonsOf l)) =
    some ([(["me"], [⟨[], "Base_on_trait_item"⟩, ⟨[], "on_super"⟩])],
      [("on_super", some (.argument "x" .invalidPointerPointee)),
       ("on_autocxx_wrapper_0x0", some (.argument "x" .invalidPointerPointee))]) := by
  rw [exSteps_lit]; decide_known

/-- A private virtual method is not offered; but a function which calls it for the superclass is, and it may not. -/
theorem private_super_witness : (exSteps .allFunctionsSafe (exSubApis .virtual exBarTy .priv)).map reasonsOf =
    some [("on_super", none), ("on_autocxx_wrapper_0x0", some .privateMethod)] := by
  rw [exSteps_lit]; decide_known

/-- **C30 (as stated, false)**: not every override has the parameters of the method it is for. -/
theorem override_parameters_false : ¬ ∀ (env : FnEnv) (s s' : FnState) (apis : List PodApi) (out : List FnPre1Api)
    (fuel : Nat) (hash : Config → Nat) (policy : UnsafePolicy) (cfg : Config),
    FnEnv.ofApis fuel hash policy cfg false apis = some (env, s) → fnSteps env s apis = .done (s', out) →
    ∀ o ∈ overridesOf (ApiVec.fromIter out).apis, ∃ n f u, .function n f u ∈ apis ∧
      f.inputs.length = o.1.length := by
  intro h
  obtain ⟨l, hl, e⟩ := Option.map_eq_some_iff.1 override_loses_parameter_witness
  obtain ⟨env, s, s', out, he, hr, rfl⟩ := exSteps_real hl
  rw [Prod.mk.injEq] at e
  obtain ⟨n, f, u, hm, hlen⟩ := h env s s' _ out _ _ _ _ he hr (["me"], [⟨[], "Base_on_trait_item"⟩]) (by rw [e.1]; simp)
  simp only [exSubApis, List.mem_cons, reduceCtorEq, Api.function.injEq, List.not_mem_nil, or_false, false_or] at hm
  obtain ⟨_, rfl, _⟩ := hm
  cases hlen

/-! ### Names which clash -/

/-- `void take(Foo)` and `void take_(Foo)`. -/
def exClash : List PodApi :=
  [.struct ⟨⟨[], "Foo"⟩, none⟩ {} {},
   .function ⟨⟨[], "take"⟩, none⟩ { ident := "take", inputs := [.typed "x" exFooTy] } (),
   .function ⟨⟨[], "take_"⟩, none⟩ { ident := "take_", inputs := [.typed "x" exFooTy] } ()]

/-- Both need a wrapper, and both wrappers get the same name, so neither function is offered. -/
theorem underscore_clash_witness : (exSteps .allFunctionsSafe exClash).map (·.map fun a => (a.name.name, a.isIgnored)) =
    some [("Foo", false), ("take_autocxx_wrapper_0x0", true)] := by
  rw [exSteps_lit]; decide_known

/-- The two functions analysed one after the other: their names, and their names in the bridge. -/
def exTwo : Option (FnEnv × FnState) → Option ((String × String) × (String × String))
  | none => none
  | some (env, s) =>
    match analyzeForeignFn env s ⟨⟨[], "take"⟩, none⟩ { ident := "take", inputs := [.typed "x" exFooTy] } .regular none with
    | .done (s, a, _) =>
      match analyzeForeignFn env s ⟨⟨[], "take_"⟩, none⟩ { ident := "take_", inputs := [.typed "x" exFooTy] } .regular
          none with
      | .done (_, a', _) => some ((a.rustName, a'.rustName), (a.cxxbridgeName, a'.cxxbridgeName))
      | _ => none
    | _ => none

/-- **C09 in a pass (as stated, false)**: names in the bridge may be the same although no function is called like a
numbered one. -/
theorem bridge_names_in_pass_false : ¬ ∀ (env : FnEnv) (s s' : FnState) (tr : List FnRun), Trace env s tr s' →
    s.bridge = [] → (∀ r ∈ tr, NoAutocxxNumber (bridgeRequest r.name r.a)) →
    (tr.map fun r => r.a.cxxbridgeName).Nodup := by
  intro h
  have w : exTwo (FnEnv.ofApis 8 (fun _ => 0) .allFunctionsSafe (exFnCfg .allFunctionsSafe) false exClash) =
      some (("take", "take_"), "take_autocxx_wrapper_0x0", "take_autocxx_wrapper_0x0") := by
    have e : moveitSafeTypes = moveitSafeLit := by
      unfold moveitSafeTypes moveitSafeLit knownGet; rw [knownTypes_eq_lit]
    have : FnEnv.ofApis 8 (fun _ => 0) .allFunctionsSafe (exFnCfg .allFunctionsSafe) false exClash =
        exEnvLit .allFunctionsSafe exClash := by
      rw [FnEnv.ofApis, podSafeTypes_eq_lit, e, exEnvLit]
    rw [this]
    decide_known
  revert w
  generalize he : FnEnv.ofApis 8 (fun _ => 0) .allFunctionsSafe (exFnCfg .allFunctionsSafe) false exClash = r
  intro w
  rw [exTwo.eq_def] at w
  split at w
  · cases w
  · rename_i env s
    split at w
    · rename_i s1 a n h1
      split at w
      · rename_i s2 a' n' h2
        have hn : ∀ t : String, t = "take" ∨ t = "take_" → ∀ ty ns, NoAutocxxNumber ⟨ty, t, ns⟩ := by
          intro t ht ty ns p k e
          obtain ⟨c, c1, c2⟩ := endsDigit_append_dec (p ++ "autocxx") k
          rw [← e] at c1
          rcases ht with rfl | rfl
          · have : ("take" : String).toList.getLast? = some 'e' := by decide
            rw [this] at c1; cases c1; revert c2; decide
          · have : ("take_" : String).toList.getLast? = some '_' := by decide
            rw [this] at c1; cases c1; revert c2; decide
        simp only [Option.some.injEq, Prod.mk.injEq] at w
        obtain ⟨⟨w1, w2⟩, w3, w4⟩ := w
        have := h env s s2 _ ((Trace.one h1).append (Trace.one h2)) (ofApis_start he).2.2.1 (by
          intro r hr
          simp only [List.cons_append, List.nil_append, List.mem_cons, List.not_mem_nil, or_false] at hr
          rcases hr with rfl | rfl
          · exact hn _ (.inl w1) _ _
          · exact hn _ (.inr w2) _ _)
        simp [w3, w4] at this
      · cases w
    · cases w

/-- Two functions which meet the hypotheses of `bridge_names_in_pass_partial`. -/
example : (exSteps .allFunctionsSafe
    [.function ⟨⟨[], "take"⟩, none⟩ { ident := "take", inputs := [.typed "x" exFooTy] } (),
     .function ⟨⟨["n"], "take"⟩, none⟩ { ident := "take", inputs := [.typed "x" exFooTy] } ()]).map
      (·.map fun a => (a.name.name, a.isIgnored)) =
    some [("take_autocxx_wrapper_0x0", false), ("n_take_autocxx_wrapper_0x0", false)] := by
  rw [exSteps_lit]; decide_known

end Verif
