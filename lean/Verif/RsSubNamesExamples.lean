import Verif.RsSubNamesProps
import Verif.RsNamesExamples

/-!
# C74: a run with a subclass in Rust whose modules define names once, and one whose do not
-/

set_option autoImplicit false

namespace Verif

/-! ## A class called like a trait made up for another -/

/-- What bindgen reports of
```cpp
class C { public: virtual int f() = 0; };
struct C_methods { int x; };
```
-/
def exTraitReports : List BindgenEvent :=
  exSubReports ++ [.found 10 "C_methods", .cppName 10 none (some 0)]

/-- What bindgen writes for it. -/
def exTraitItems : List BindgenItem :=
  [.mod "root"
    [.struct "C" [("_address", false, .path ["u8"] [])] [],
      .foreignMod [.fn
        { ident := "C_f_bindgen_original"
          inputs := [.typed "this" (.ptr true (.path ["root", "C"] []))]
          output := some exCInt }],
      .impl (.path ["C"] []) [.fn "f_bindgen_original" [.call ["C_f_bindgen_original"]]],
      .struct "C_methods" [("x", true, exCInt)] []]]

set_option maxRecDepth 10000 in
set_option synthInstance.maxSize 1024 in
/-- **C74 is false**: a class is called `C_methods`, and `C` has a subclass in Rust. The run succeeds, and the outermost
module defines the name twice. -/
theorem made_name_false :
    (exConvertAll { exSubCfg [("C", "S")] with allowlist := .specific [.item "C_methods"] } exTraitReports exTraitItems).rust.map
      (·.namesIn []) =
      some (some ["S_remove_ownership", "S_f_autocxx_wrapper_0x0", "bindgen", "cxxbridge", "root", "output", "SCpp", "SHolder",
        "C_methods", "C", "C_methods"]) := by
  decide_run

/-! ## A run in which all goes well -/

/-- What matters of an item for the names. -/
def FnApi.namesAll (cfg : Config) (l : List FnApi) (a : FnApi) :
    QName × List Ident × List Ident × Option (Ident × Option String) :=
  (a.name, exposedNames cfg l a, globalNames cfg a, match a with
    | .function n f _ => some (f.ident, n.cppName)
    | _ => none)

/-- The items of the run, as far as names go. -/
def exSubNames : List (QName × List Ident × List Ident × Option (Ident × Option String)) :=
  [(⟨[], "SCpp_autocxx_alloc_autocxx_wrapper_0x0"⟩, [], [], some ("SCpp_autocxx_alloc", none)),
   (⟨[], "SCpp_autocxx_free_autocxx_wrapper_0x0"⟩, [], [], some ("SCpp_autocxx_free", none)),
   (⟨[], "S"⟩, ["SCpp", "SHolder"], ["S_remove_ownership"], none),
   (⟨[], "C_autocxx_alloc_autocxx_wrapper_0x0"⟩, [], [], some ("C_autocxx_alloc", none)),
   (⟨[], "C_autocxx_free_autocxx_wrapper_0x0"⟩, [], [], some ("C_autocxx_free", none)),
   (⟨[], "C"⟩, ["C_methods", "C"], [], none),
   (⟨[], "S_f_autocxx_wrapper_0x0"⟩, [], ["S_f_autocxx_wrapper_0x0"], none),
   (⟨[], "f_autocxx_wrapper_0x0"⟩, [], [], some ("C_f", some "f")),
   (⟨[], "C_synthetic_destructor_0x0_autocxx_wrapper_0x0"⟩, [], [], some ("C_synthetic_destructor_0x0", none)),
   (⟨[], "SCpp_new_autocxx_autocxx_wrapper_0x0"⟩, [], [], some ("SCpp_SCpp", some "SCpp")),
   (⟨[], "C_f_trait_item"⟩, [], [], none),
   (⟨[], "c_int"⟩, [], [], none)]

set_option maxRecDepth 10000 in
set_option synthInstance.maxSize 1024 in
theorem exSub_names :
    (exConvert (exSubCfg [("C", "S")]) exSubReports exSubItems).items.map
      (fun l => l.map (FnApi.namesAll (exSubCfg [("C", "S")]) l)) = some exSubNames := by
  decide_run

/-- The names a function may be meant to have. -/
def idealsOf : Option (Ident × Option String) → List String
  | some (i, none) => [i]
  | some (i, some c) => [i, c, c ++ "_"]
  | none => []

theorem mem_idealsOf {i b : Ident} {c : Option String} (h : IdealName i c b) : b ∈ idealsOf (some (i, c)) := by
  cases h <;> simp [idealsOf]

/-- The second is the first, followed by digits. -/
def digitsAfter (b' b : String) : Bool :=
  b'.toList.isPrefixOf b.toList && (b.toList.drop b'.toList.length).all Char.isDigit && b.toList.length != b'.toList.length

theorem digits_after {b' : String} {k : Nat} : digitsAfter b' (b' ++ dec k) = true := by
  have h1 : (dec k).toList.all Char.isDigit = true := List.all_eq_true.2 (dec_digit k)
  have h2 := dec_ne_nil k
  have h3 : (dec k).toList.length ≠ 0 := fun h => h2 (List.length_eq_zero_iff.1 h)
  simp only [digitsAfter, String.toList_append, Bool.and_eq_true, List.isPrefixOf_iff_prefix, List.prefix_append, true_and,
    List.drop_left, h1, List.length_append, bne_iff_ne]
  omega

/-- All that is needed for distinct names is so in this run, which has a subclass in Rust, for every module. -/
theorem sub_names_witness : ∃ out, Nonempty (ConvertStages 100 (fun _ => 0) exSig .allFunctionsSafe (exSubCfg [("C", "S")]) false
      (.ofEvents exSubReports) exSubItems out) ∧ (∃ n sup, .subclass n sup ∈ out.apis) ∧
    TopApart (exSubCfg [("C", "S")]) out.apis ∧
    ∀ path, ModuleApart (exSubCfg [("C", "S")]) out.apis path ∧ MadeApart (exSubCfg [("C", "S")]) out.apis path := by
  obtain ⟨l, hl, e⟩ := Option.map_eq_some_iff.1 exSub_names
  obtain ⟨out, hr, rfl⟩ := PassRun.items_some hl
  generalize exSubCfg [("C", "S")] = cfg at *
  have hb : ∀ a ∈ out.apis, FnApi.namesAll cfg out.apis a ∈ exSubNames := fun a ha => e ▸ List.mem_map.2 ⟨a, ha, rfl⟩
  have hns : ∀ a ∈ out.apis, a.name.ns = [] := by
    have : ∀ x ∈ exSubNames, x.1.ns = [] := by decide
    exact fun a ha => this _ (hb a ha)
  have hno : ∀ {path : List String} {x : String} {a : FnApi}, a ∈ out.apis → ¬ path ++ [x] <+: a.name.ns := by
    intro path x a ha h
    rw [hns a ha] at h
    have := List.prefix_nil.1 h
    simp at this
  have hgl : ∀ a ∈ out.apis, ∀ x ∈ globalNames cfg a, x ∈ ["S_remove_ownership", "S_f_autocxx_wrapper_0x0"] := by
    have : ∀ y ∈ exSubNames, ∀ x ∈ y.2.2.1, x ∈ ["S_remove_ownership", "S_f_autocxx_wrapper_0x0"] := by decide
    exact fun a ha => this _ (hb a ha)
  have hex : ∀ a ∈ out.apis, ∀ x ∈ exposedNames cfg out.apis a, x ∈ ["SCpp", "SHolder", "C_methods", "C"] := by
    have : ∀ y ∈ exSubNames, ∀ x ∈ y.2.1, x ∈ ["SCpp", "SHolder", "C_methods", "C"] := by decide
    exact fun a ha => this _ (hb a ha)
  refine ⟨out, (convert_ok_iff ..).1 hr, ?_, ⟨?_, ?_, ?_, ?_⟩, fun path => ⟨⟨?_, ?_, ?_, ?_⟩, ?_⟩⟩
  · have hm : ((⟨[], "S"⟩, ["SCpp", "SHolder"], ["S_remove_ownership"], none) :
        QName × List Ident × List Ident × Option (Ident × Option String)) ∈ exSubNames := by decide
    rw [← e] at hm
    obtain ⟨a, ha, e'⟩ := List.mem_map.1 hm
    have h1 : exposedNames cfg out.apis a = ["SCpp", "SHolder"] := congrArg (fun x => x.2.1) e'
    have h2 : globalNames cfg a = ["S_remove_ownership"] := congrArg (fun x => x.2.2.1) e'
    cases a with
    | subclass n sup => exact ⟨n, sup, ha⟩
    | rustType | rustFn | rustSubclassFn => cases h1
    | stringConstructor => simp [globalNames] at h2
    | _ => cases h2
  · have : ∀ y ∈ exSubNames, ∀ z ∈ exSubNames, y.1 ≠ z.1 → ∀ x ∈ y.2.2.1, x ∉ z.2.2.1 := by decide
    exact fun a ha b hb' hne => this _ (hb a ha) _ (hb b hb') hne
  · have : ∀ x ∈ (["S_remove_ownership", "S_f_autocxx_wrapper_0x0"] : List Ident), x ∉ outermostNames := by decide
    exact fun a ha x hx => this x (hgl a ha x hx)
  · have : ∀ x ∈ (["S_remove_ownership", "S_f_autocxx_wrapper_0x0"] : List Ident),
        x ∉ (["SCpp", "SHolder", "C_methods", "C"] : List Ident) := by decide
    exact fun a ha x hx b hb' _ h => this x (hgl a ha x hx) (hex b hb' x h)
  · intro a _ x _ b hb' h
    exact hno (path := []) hb' h
  · have h1 : ∀ x ∈ (["cxxbridge", "output", "bindgen"] ++ "ToCppString" :: outermostNames : List Ident),
        x ∉ (["SCpp", "SHolder", "C_methods", "C"] : List Ident) := by decide
    intro x hx
    refine ⟨fun a ha _ h => h1 x ?_ (hex a ha x h), fun a ha => hno ha⟩
    rw [fixedNames] at hx
    split at hx
    · exact List.mem_append_right _ hx
    · exact List.mem_append_left _ hx
  · intro a _ _ x _ b hb'
    exact hno hb'
  · have : ∀ y ∈ exSubNames, ∀ z ∈ exSubNames, y.1 ≠ z.1 → ∀ x ∈ y.2.1, x ∉ z.2.1 := by decide
    exact fun a ha b hb' _ _ hne _ _ => this _ (hb a ha) _ (hb b hb') hne
  · have : ∀ y ∈ exSubNames, ∀ z ∈ exSubNames, ∀ b ∈ idealsOf y.2.2.2, ∀ b' ∈ idealsOf z.2.2.2,
        digitsAfter b' b = false := by decide
    intro n f an n' f' an' ha hb' _ _ b b' k hi hi' _ he
    have := this _ (hb _ ha) _ (hb _ hb') b (mem_idealsOf hi) b' (mem_idealsOf hi')
    rw [he, digits_after] at this
    cases this
  · have : ∀ y ∈ exSubNames, ∀ z ∈ exSubNames, ∀ s ∈ madeSuffixes, y.1.name ++ s ∈ y.2.1 → z.1.name ∈ z.2.1 →
        z.1.name ≠ y.1.name ++ s := by decide
    exact fun a ha b hb' _ _ s hs h1 _ h2 => this _ (hb a ha) _ (hb b hb') s hs h1 h2

end Verif
