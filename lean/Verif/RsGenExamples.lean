import Verif.RsPipeProps
import Verif.PipelineExamples

/-!
# C68: whole runs, up to the generated Rust code
-/

set_option autoImplicit false

namespace Verif

/-- The Rust code of a run which ends well. -/
def PassRun.rust : PassRun (Except ConvertErr (RsFile × Option CppFilePair)) → Option RsFile
  | .done (.ok a) => some a.1
  | _ => none

theorem PassRun.rust_some {r : PassRun (Except ConvertErr (RsFile × Option CppFilePair))} {f : RsFile} (h : r.rust = some f) :
    ∃ c, r = .done (.ok (f, c)) := by
  unfold PassRun.rust at h
  split at h
  · rw [← Option.some.inj h]; exact ⟨_, rfl⟩
  · cases h

/-- The settings of these runs: superclasses with the names of their subclasses. -/
def exSubCfg (l : List (String × String)) : Config :=
  { allowlist := .specific [], subclasses := l.map fun p => ⟨p.1, p.2⟩, excludeUtilities := true }

/-- A run. -/
def exConvertAll (cfg : Config) (cb : List BindgenEvent) (items : List BindgenItem) :
    PassRun (Except ConvertErr (RsFile × Option CppFilePair)) :=
  convertAll 100 (fun _ => 0) exSig .allFunctionsSafe cfg false (.ofEvents cb) (some items) { headerNamer := fun s => s }
    "cxxgen.h" "" ["input.h"]

/-- The traits in the root of the output module, with their methods. -/
def RsFile.traits (f : RsFile) : List (Ident × List Ident) :=
  f.output.filterMap fun o =>
    match o with
    | .item (.trait n _ fns) => some (n, fns.map TraitFn.name)
    | _ => none

theorem RsFile.has_trait {f : RsFile} {n : Ident} {parent : Option Ident} {fns : List TraitFn}
    (h : f.Has [] (.trait n parent fns)) : (n, fns.map TraitFn.name) ∈ f.traits := by
  obtain ⟨c, hc, hm⟩ := h
  cases hc
  exact List.mem_filterMap.2 ⟨_, hm, rfl⟩

/-- What the functions C++ calls for virtual methods call: the trait and its method. -/
def RsFile.overrides (f : RsFile) : List (List String × Ident) :=
  f.globals.filterMap fun g =>
    match g with
    | .subclassFn s => some (s.trait, s.method)
    | _ => none

theorem RsFile.mem_overrides {f : RsFile} {x : List String × Ident} (h : x ∈ f.overrides) :
    ∃ s, .subclassFn s ∈ f.globals ∧ s.trait = x.1 ∧ s.method = x.2 := by
  obtain ⟨g, hg, h⟩ := List.mem_filterMap.1 h
  cases g with
  | subclassFn s => cases h; exact ⟨s, hg, rfl, rfl⟩
  | _ => cases h

/-! ## A virtual method whose trait does not exist -/

/-- What bindgen reports of
```cpp
class A { public: virtual void b_c() = 0; };
class A_b { public: virtual void c() = 0; };
```
-/
def exTwoReports : List BindgenEvent :=
  [.foundMod 0 "root" none, .found 1 "A", .cppName 1 none (some 0), .found 2 "A_b_c_bindgen_original",
    .cppName 2 (some "b_c_bindgen_original") (some 0), .virtualness 2 .pureVirtual, .found 3 "A_b",
    .cppName 3 none (some 0), .found 4 "A_b_c1_bindgen_original", .cppName 4 (some "c_bindgen_original") (some 0),
    .virtualness 4 .pureVirtual]

/-- What bindgen writes for it. -/
def exTwoItems : List BindgenItem :=
  [.mod "root"
    [.struct "A" [("_address", false, .path ["u8"] [])] [],
      .foreignMod [.fn
        { ident := "A_b_c_bindgen_original", inputs := [.typed "this" (.ptr true (.path ["root", "A"] []))] }],
      .impl (.path ["A"] []) [.fn "b_c_bindgen_original" [.call ["A_b_c_bindgen_original"]]],
      .struct "A_b" [("_address", false, .path ["u8"] [])] [],
      .foreignMod [.fn
        { ident := "A_b_c1_bindgen_original", inputs := [.typed "this" (.ptr true (.path ["root", "A_b"] []))] }],
      .impl (.path ["A_b"] []) [.fn "c_bindgen_original" [.call ["A_b_c1_bindgen_original"]]]]]

set_option maxRecDepth 10000 in
set_option synthInstance.maxSize 1024 in
theorem exTwo_run :
    (exConvertAll (exSubCfg [("A", "S"), ("A_b", "T")]) exTwoReports exTwoItems).rust.map
      (fun f => (f.overrides, f.traits)) = some
      ([(["output", "A_methods"], "b_c"), (["output", "A_b_methods"], "c")], [("A_methods", ["b_c"]), ("A_b_methods", [])]) := by
  decide_run

/-- **C68, C66 are false**: two classes to be derived from, `A` with a virtual method `b_c` and `A_b` with a virtual method
`c`. The run succeeds. The method of `A_b` is to be overridden by a function which calls `c` of the trait `A_b_methods`,
but this trait has no methods: that of `A_b` was taken for that of `A`. -/
theorem override_without_trait_method_false : ∃ f c, exConvertAll (exSubCfg [("A", "S"), ("A_b", "T")]) exTwoReports
      exTwoItems = .done (.ok (f, c)) ∧
    (∃ s, .subclassFn s ∈ f.globals ∧ s.trait = ["output", "A_b_methods"] ∧ s.method = "c") ∧
    ∀ parent fns, f.Has [] (.trait "A_b_methods" parent fns) → fns = [] := by
  obtain ⟨f, hf, e⟩ := Option.map_eq_some_iff.1 exTwo_run
  obtain ⟨c, hc⟩ := PassRun.rust_some hf
  have h1 := congrArg Prod.fst e
  have h2 := congrArg Prod.snd e
  dsimp only at h1 h2
  refine ⟨f, c, hc, RsFile.mem_overrides (x := (_, _)) (by rw [h1]; simp), ?_⟩
  intro parent fns h
  have := RsFile.has_trait h
  rw [h2] at this
  simpa using this

/-! ## A subclass whose name cxx doesn't accept, and one whose name it does -/

/-- What bindgen reports of
```cpp
class C { public: virtual int f() = 0; };
```
-/
def exSubReports : List BindgenEvent :=
  [.foundMod 0 "root" none, .found 1 "C", .cppName 1 none (some 0), .found 2 "C_f_bindgen_original",
    .cppName 2 (some "f_bindgen_original") (some 0), .virtualness 2 .pureVirtual]

/-- What bindgen writes for it. -/
def exSubItems : List BindgenItem :=
  [.mod "root"
    [.struct "C" [("_address", false, .path ["u8"] [])] [],
      .foreignMod [.fn
        { ident := "C_f_bindgen_original"
          inputs := [.typed "this" (.ptr true (.path ["root", "C"] []))]
          output := some exCInt }],
      .impl (.path ["C"] []) [.fn "f_bindgen_original" [.call ["C_f_bindgen_original"]]]]]

set_option maxRecDepth 10000 in
set_option synthInstance.maxSize 1024 in
/-- **C68 is false**: a subclass is asked for with a name cxx does not accept, and is given up. The run succeeds: the
bridge still declares the function which is to override the method of its superclass, with a parameter of a type which the
bridge does not declare. -/
theorem override_without_holder_false :
    (exConvertAll (exSubCfg [("C", "S__x")]) exSubReports exSubItems).rust.map (·.externRust) = some
      [.subclassFn false "S__x_f_autocxx_wrapper_0x0"
        [.typed "me" (.ref false none (.path ["S__xHolder"] []))] (some (.path ["c_int"] []))] := by
  decide_run

set_option maxRecDepth 10000 in
set_option synthInstance.maxSize 1024 in
/-- With another name all is well: the overridden method is in the trait which the override calls, and the holder is
declared. That `C` cannot be instantiated does not keep the bridge from being asked for a vector of it (C12). -/
theorem exSub_run :
    (exConvertAll (exSubCfg [("C", "S")]) exSubReports exSubItems).rust.map
      (fun f => (f.externRust, f.overrides, f.traits, f.bridgeImpls, f.externC.filterMap BridgeDecl.declares)) = some
      ([.holder "SHolder", .removeOwnership "S_remove_ownership" "SHolder",
        .subclassFn false "S_f_autocxx_wrapper_0x0"
          [.typed "me" (.ref false none (.path ["SHolder"] []))] (some (.path ["c_int"] []))],
       [(["output", "C_methods"], "f")], [("C_methods", ["f"])],
       [.uniquePtr "SCpp", .sharedPtr "SCpp", .weakPtr "SCpp", .uniquePtr "C", .sharedPtr "C", .weakPtr "C",
        .cxxVector "C"],
       ["SCpp_autocxx_alloc_autocxx_wrapper_0x0", "SCpp_autocxx_free_autocxx_wrapper_0x0", "SCpp", "SCpp_remove_ownership",
        "As_C", "As_C_mut", "SCpp_As_C_UniquePtr", "C_autocxx_alloc_autocxx_wrapper_0x0",
        "C_autocxx_free_autocxx_wrapper_0x0", "C", "f_autocxx_wrapper_0x0",
        "C_synthetic_destructor_0x0_autocxx_wrapper_0x0", "SCpp_new_autocxx_autocxx_wrapper_0x0", "c_int"]) := by
  decide_run

/-- Non-trivial instance of the theorems about the generated code of a run. -/
example : ∃ out f r, Nonempty (ConvertStages 100 (fun _ => 0) exSig .allFunctionsSafe (exSubCfg [("C", "S")]) false
      (.ofEvents exSubReports) exSubItems out) ∧
    generateRsCode (fun _ => 0) .allFunctionsSafe (exSubCfg [("C", "S")]) ["input.h"] r out.apis = some f ∧
    .holder "SHolder" ∈ f.externRust ∧ .cxxVector "C" ∈ f.bridgeImpls := by
  obtain ⟨f, hf, e⟩ := Option.map_eq_some_iff.1 exSub_run
  obtain ⟨c, hc⟩ := PassRun.rust_some hf
  obtain ⟨out, hs, -, hr⟩ := (convertAll_ok_iff ..).1 hc
  have h1 := congrArg Prod.fst e
  have h2 := congrArg (fun x => x.2.2.2.1) e
  dsimp only at h1 h2
  exact ⟨out, f, _, hs, hr, by rw [h1]; simp, by rw [h2]; simp⟩

end Verif
