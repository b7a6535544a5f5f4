import Verif.RsNamesProps
import Verif.RsGenExamples

/-!
# C74, C65: whole runs whose modules define names once, or twice
-/

set_option autoImplicit false

namespace Verif

/-! ## A constructor which gets the name of a method -/

/-- What bindgen reports of
```cpp
class A { public: A(); A(int a); void new1(); };
```
-/
def exNewReports : List BindgenEvent :=
  [.foundMod 0 "root" none, .found 1 "A", .cppName 1 none (some 0),
    .found 2 "A_A_bindgen_original", .cppName 2 (some "A_bindgen_original") (some 0), .specialMember 2 .defaultConstructor,
    .found 3 "A_A_bindgen_original1", .cppName 3 (some "A_bindgen_original") (some 0),
    .found 4 "A_new1_bindgen_original", .cppName 4 (some "new1_bindgen_original") (some 0)]

/-- What bindgen writes for it. -/
def exNewItems : List BindgenItem :=
  [.mod "root"
    [.struct "A" [("_address", false, .path ["u8"] [])] [],
      .foreignMod [.fn { ident := "A_A_bindgen_original", inputs := [.typed "this" (.ptr true (.path ["root", "A"] []))] }],
      .foreignMod [.fn
        { ident := "A_A_bindgen_original1"
          inputs := [.typed "this" (.ptr true (.path ["root", "A"] [])), .typed "a" exCInt] }],
      .foreignMod [.fn { ident := "A_new1_bindgen_original", inputs := [.typed "this" (.ptr true (.path ["root", "A"] []))] }],
      .impl (.path ["A"] [])
        [.fn "new" [.call ["A_A_bindgen_original"]], .fn "new1" [.call ["A_A_bindgen_original1"]],
          .fn "new1_bindgen_original" [.call ["A_new1_bindgen_original"]]]]]

set_option maxRecDepth 10000 in
set_option synthInstance.maxSize 1024 in
/-- **C65, C74 are false**: the second constructor of a class is offered as `new1`, and so is its method `new1`. The run
succeeds, and the generated code, which gives the class two methods of one name, does not compile. -/
theorem numbered_names_false :
    (exConvertAll (exRunCfg ["A"] []) exNewReports exNewItems).rust.map (·.membersOf [] "A") =
      some ["new", "new1", "new1"] := by
  decide_run

/-! ## Namespaces -/

/-- What bindgen reports of
```cpp
namespace space { void f(); }
void h();
```
-/
def exSpaceReports (space : String) : List BindgenEvent :=
  [.foundMod 0 "root" none, .foundMod 1 space (some 0), .found 2 "f_bindgen_original", .cppName 2 none (some 1),
    .found 3 "h_bindgen_original", .cppName 3 none (some 0)]

/-- What bindgen writes for it. -/
def exSpaceItems (space : String) : List BindgenItem :=
  [.mod "root"
    [.mod space [.foreignMod [.fn { ident := "f_bindgen_original", inputs := [] }]],
      .foreignMod [.fn { ident := "h_bindgen_original", inputs := [] }]]]

set_option maxRecDepth 10000 in
set_option synthInstance.maxSize 1024 in
/-- **C28, C74 are false**: a namespace is called `output`, as is what every generated module imports. The run succeeds,
and the outermost module defines the name twice. -/
theorem reserved_namespace_false :
    (exConvertAll (exRunCfg ["output::f", "h"] []) (exSpaceReports "output") (exSpaceItems "output")).rust.map
      (fun f => (f.namesIn [], f.namesIn ["output"])) =
      some (some ["bindgen", "cxxbridge", "root", "output", "h", "output"], some ["cxxbridge", "output", "bindgen", "f"]) := by
  decide_run

/-! ## A run in which all goes well -/

/-- What matters of an item for the names. -/
def FnApi.namesBrief (cfg : Config) (l : List FnApi) (a : FnApi) : QName × List Ident × Option (Ident × Option String) :=
  (a.name, exposedNames cfg l a, match a with
    | .function n f _ => some (f.ident, n.cppName)
    | _ => none)

set_option maxRecDepth 10000 in
set_option synthInstance.maxSize 1024 in
theorem exSpace_items :
    (exConvert (exRunCfg ["geo::f", "h"] []) (exSpaceReports "geo") (exSpaceItems "geo")).items.map
      (fun l => l.map (FnApi.namesBrief (exRunCfg ["geo::f", "h"] []) l)) =
      some [(⟨["geo"], "f"⟩, ["f"], some ("f", none)), (⟨[], "h"⟩, ["h"], some ("h", none))] := by
  decide_run

theorem ideal_own {i b : Ident} (h : IdealName i none b) : b = i := by cases h; rfl

/-- What is needed for distinct names is so in this run, for every module, and nothing of Rust is offered to C++. -/
example : ∃ out, Nonempty (ConvertStages 100 (fun _ => 0) exSig .allFunctionsSafe (exRunCfg ["geo::f", "h"] []) false
      (.ofEvents (exSpaceReports "geo")) (exSpaceItems "geo") out) ∧ out.apis.length = 2 ∧
    (∀ a ∈ out.apis, ¬ OffersRust a) ∧ ∀ path, ModuleApart (exRunCfg ["geo::f", "h"] []) out.apis path := by
  obtain ⟨l, hl, e⟩ := Option.map_eq_some_iff.1 exSpace_items
  obtain ⟨out, hr, rfl⟩ := PassRun.items_some hl
  refine ⟨out, (convert_ok_iff ..).1 hr, by simpa using congrArg List.length e, ?_, ?_⟩
  all_goals
    have hb : ∀ a ∈ out.apis, FnApi.namesBrief (exRunCfg ["geo::f", "h"] []) out.apis a = (⟨["geo"], "f"⟩, ["f"], some ("f", none)) ∨
        FnApi.namesBrief (exRunCfg ["geo::f", "h"] []) out.apis a = (⟨[], "h"⟩, ["h"], some ("h", none)) := by
      intro a ha
      have := e ▸ List.mem_map.2 ⟨a, ha, rfl⟩
      simpa using this
    have hf : ∀ a ∈ out.apis, ∃ n f an, a = .function n f an := by
      intro a ha
      cases a with
      | function n f an => exact ⟨n, f, an, rfl⟩
      | _ => rcases hb _ ha with h | h <;> cases (Prod.mk.inj (Prod.mk.inj h).2).2
  · intro a ha
    obtain ⟨n, f, an, rfl⟩ := hf a ha
    exact fun h => h
  · intro path
    have hx : ∀ a ∈ out.apis, (a.name = ⟨["geo"], "f"⟩ ∧ exposedNames (exRunCfg ["geo::f", "h"] []) out.apis a = ["f"]) ∨
        (a.name = ⟨[], "h"⟩ ∧ exposedNames (exRunCfg ["geo::f", "h"] []) out.apis a = ["h"]) := by
      intro a ha
      exact (hb a ha).imp (fun h => ⟨(Prod.mk.inj h).1, (Prod.mk.inj (Prod.mk.inj h).2).1⟩)
        (fun h => ⟨(Prod.mk.inj h).1, (Prod.mk.inj (Prod.mk.inj h).2).1⟩)
    have hpre : ∀ (a : FnApi), a ∈ out.apis → ∀ x, path ++ [x] <+: a.name.ns → path = [] ∧ x = "geo" := by
      intro a ha x hp
      rcases hx a ha with ⟨hn, -⟩ | ⟨hn, -⟩ <;> rw [hn] at hp
      · cases path with
        | nil =>
          obtain ⟨t, ht⟩ := hp
          exact ⟨rfl, (List.cons.inj ht).1⟩
        | cons y path =>
          obtain ⟨t, ht⟩ := hp
          have := congrArg List.length ht
          simp at this
      · obtain ⟨t, ht⟩ := hp
        have := congrArg List.length ht
        simp at this
    refine ⟨fun x hxf => ⟨fun a ha hp hm => ?_, fun a ha hp => ?_⟩, fun a ha hp x hm b hb' hpb => ?_,
      fun a ha b hb' hpa hpb hne ho hnf => ?_, fun n f an n' f' an' h h' hp hp' b b' k hi hi' hk => ?_⟩
    · rw [fixedNames] at hxf
      rcases hx a ha with ⟨-, he⟩ | ⟨-, he⟩ <;> rw [he, List.mem_singleton] at hm <;> subst hm <;> split at hxf <;>
        exact absurd hxf (by decide)
    · obtain ⟨rfl, rfl⟩ := hpre a ha x hp
      exact absurd hxf (by decide)
    · obtain ⟨-, rfl⟩ := hpre b hb' x hpb
      rcases hx a ha with ⟨-, he⟩ | ⟨-, he⟩ <;> rw [he, List.mem_singleton] at hm <;> exact absurd hm (by decide)
    · obtain ⟨n, f, an, rfl⟩ := hf a ha
      obtain ⟨n', f', an', rfl⟩ := hf b hb'
      exact absurd ⟨rfl, rfl⟩ (hnf n f an n' f' an')
    · have hlit : ∀ {n : ApiName} {f : FuncToConvert} {an : FnAnalysis}, .function n f an ∈ out.apis → ∀ {b},
          IdealName f.ident n.cppName b → (n.name.ns = ["geo"] ∧ b = "f") ∨ (n.name.ns = [] ∧ b = "h") := by
        intro n f an h b hi
        rcases hb _ h with e | e <;> obtain ⟨e1, e2⟩ := Prod.mk.inj e <;> obtain ⟨-, e3⟩ := Prod.mk.inj e2 <;>
          obtain ⟨e4, e5⟩ := Prod.mk.inj (Option.some.inj e3) <;> rw [e4, e5] at hi
        · exact .inl ⟨congrArg QName.ns e1, ideal_own hi⟩
        · exact .inr ⟨congrArg QName.ns e1, ideal_own hi⟩
      have hbb : b = b' := by
        rcases hlit h hi with ⟨h1, rfl⟩ | ⟨h1, rfl⟩ <;> rcases hlit h' hi' with ⟨h2, rfl⟩ | ⟨h2, rfl⟩
        · rfl
        · rw [hp] at h1; rw [hp', h1] at h2; cases h2
        · rw [hp] at h1; rw [hp', h1] at h2; cases h2
        · rfl
      subst hbb
      intro e
      have := congrArg (fun s : String => s.toList.length) e
      simp only [String.toList_append, List.length_append] at this
      have h0 := dec_ne_nil k
      rw [← List.length_pos_iff] at h0
      omega

set_option maxRecDepth 10000 in
set_option synthInstance.maxSize 1024 in
/-- The names in that run. -/
example : (exConvertAll (exRunCfg ["geo::f", "h"] []) (exSpaceReports "geo") (exSpaceItems "geo")).rust.map
      (fun f => (f.namesIn [], f.namesIn ["geo"], f.namesIn ["other"])) =
    some (some ["bindgen", "cxxbridge", "root", "output", "h", "geo"], some ["cxxbridge", "output", "bindgen", "f"], none) := by
  decide_run

end Verif
