import Verif.ParseItemsProps
import Verif.CallbacksProps
import Verif.KnownTypesProps

/-!
# C50, C04, C49: a run of the parser, and what it gets wrong
-/

set_option autoImplicit false

namespace Verif

/-- What bindgen reports of
```cpp
struct Outer { struct Inner { int i; }; };
namespace n { class C { public: int f(); }; }
```
-/
def exReports : List BindgenEvent :=
  [.foundMod 0 "root" none, .found 1 "Outer", .cppName 1 none (some 0), .found 2 "Outer_Inner",
    .cppName 2 (some "Outer::Inner") (some 0), .foundMod 3 "n" (some 0), .found 4 "C", .cppName 4 none (some 3),
    .found 5 "C_f_bindgen_original", .cppName 5 (some "f_bindgen_original") (some 3), .visibility 5 .pub]

/-- What bindgen writes for it. -/
def exRoot : List BindgenItem :=
  [.use (.path "self" (.path "super" (.name "root"))),
    .struct "Outer" [("_address", false, .path ["u8"] [])] [],
    .struct "Outer_Inner" [("i", true, .path ["root", "std", "os", "raw", "c_int"] [])] [],
    .mod "n"
      [.struct "C" [("_address", false, .path ["u8"] [])] [],
        .foreignMod [.fn { ident := "C_f_bindgen_original", output := some (.path ["i32"] []) }],
        .impl (.path ["C"] []) [.fn "f_bindgen_original" [.call ["C_f_bindgen_original"]]]]]

/-- The request for a class, and for all of `n`. -/
def exParseCfg (d : String) : Config :=
  { allowlist := .specific [.item d, .nspace "n"], excludeUtilities := true }

/-- The APIs found. -/
def exFound : List NullApi :=
  [.struct ⟨⟨[], "Outer"⟩, none⟩ { fields := [("_address", false, .path ["u8"] [])] } (),
    .struct ⟨⟨[], "Outer_Inner"⟩, some "Outer::Inner"⟩
      { fields := [("i", true, .path ["root", "std", "os", "raw", "c_int"] [])] } (),
    .struct ⟨⟨["n"], "C"⟩, none⟩ { fields := [("_address", false, .path ["u8"] [])] } (),
    .function ⟨⟨["n"], "C_f"⟩, some "f"⟩
      { ident := "C_f", output := some (.path ["i32"] []), selfTy := some ⟨["n"], "C"⟩, originalName := some "f"
        provenance := .bindgen } ()]

theorem not_vtable (id : String) (h : (stripSuffix id "__bindgen_vtable").isSome = false) :
    ∀ stem, id ≠ stem ++ "__bindgen_vtable" := fun stem e => by
  rw [(vtable_iff id).2 ⟨stem, e⟩] at h
  cases h

theorem not_mapped (cfg : Config) (q : QName)
    (h : (q.ns.isEmpty && knownTypesLit.allNames.any fun n => n.name = q.name) = false)
    (h' : (knownTypesLit.get q).isSome = false) (h'' : cfg.isRustType q.name = false) : ¬ MappedElsewhere cfg q := by
  rintro (hm | hm | ⟨-, hm⟩)
  · unfold isKnownSubstituteType at hm
    rw [knownTypes_eq_lit, h] at hm
    cases hm
  · unfold isKnownType at hm
    rw [knownGet_eq_lit, h'] at hm
    cases hm
  · rw [h''] at hm
    cases hm

theorem exFound_found (d : String) (hash : Config → Nat) (sigOf : RustSig → RustFnSig) :
    FoundBy hash sigOf (exParseCfg d) (Callbacks.ofEvents exReports) [.other, .mod "root" exRoot] exFound := by
  refine ⟨[], exRoot, _, rfl, .skip nofun nofun .root,
    .cons (.usePlain (.path (.path (.name _))) nofun)
      (.cons (.struct (o := none) (e := none) (not_vtable _ (by decide +kernel)) (by decide +kernel) (by decide +kernel)
          ⟨false, .pub, by decide +kernel, by decide +kernel, rfl⟩
          (not_mapped _ _ (by decide +kernel) (by decide +kernel) rfl) List.not_mem_nil (by
            rintro (⟨f, hf, h⟩ | ⟨-, h⟩)
            · rw [List.mem_singleton.1 hf] at h
              exact absurd h (by decide +kernel)
            · exact h rfl))
        (.cons (.struct (o := some "Outer::Inner") (e := none) (not_vtable _ (by decide +kernel)) (by decide +kernel)
            (by decide +kernel) ⟨false, .pub, by decide +kernel, by decide +kernel, rfl⟩
            (not_mapped _ _ (by decide +kernel) (by decide +kernel) rfl) List.not_mem_nil (by
              rintro (⟨f, hf, h⟩ | ⟨-, h⟩)
              · rw [List.mem_singleton.1 hf] at h
                exact absurd h (by decide +kernel)
              · exact h rfl))
          (.cons (.mod
            (.cons (.struct (o := none) (e := none) (not_vtable _ (by decide +kernel)) (by decide +kernel) (by decide +kernel)
                ⟨false, .pub, by decide +kernel, by decide +kernel, rfl⟩
                (not_mapped _ _ (by decide +kernel) (by decide +kernel) rfl) List.not_mem_nil (by
                  rintro (⟨f, hf, h⟩ | ⟨-, h⟩)
                  · rw [List.mem_singleton.1 hf] at h
                    exact absurd h (by decide +kernel)
                  · exact h rfl))
              (.cons (.foreign (.fn (f :=
                  { ident := "C_f", output := some (.path ["i32"] []), originalName := some "f", provenance := .bindgen })
                  ⟨by decide +kernel, rfl, rfl, rfl, by decide +kernel, by decide +kernel, by decide +kernel,
                    by decide +kernel, by decide +kernel, rfl, rfl, rfl, rfl, rfl⟩ .nil))
                (.cons (.impl (segs := [])) .nil)))) .nil))), ?_⟩
  decide +kernel

/-- Non-trivial instance of `directives_obeyed`, `item_never_lost` and the rest: this run succeeds if the inner class is
asked for by the name bindgen gave it, and finds the method with its class. -/
theorem exParse_ok (hash : Config → Nat) (sigOf : RustSig → RustFnSig) :
    parseBindgenItems hash sigOf (exParseCfg "Outer_Inner") (Callbacks.ofEvents exReports) [.other, .mod "root" exRoot] =
      some (.ok (ApiVec.fromIter exFound)) := by
  rw [parse_ok_iff]
  refine ⟨exFound, exFound_found _ _ _, ?_, ?_⟩
  · rintro d (⟨l, hl, hd⟩ | hd)
    · cases hl
      rcases List.mem_cons.1 hd with hd | hd
      · cases hd
        exact ⟨_, List.mem_cons_of_mem _ List.mem_cons_self, by decide +kernel⟩
      · cases List.mem_singleton.1 hd
    · cases hd
  · rfl

/-- **C50 is false**: the class `Outer::Inner` is there, and is asked for by its C++ name, but the request is refused:
it is compared with the name `Outer_Inner` which bindgen made up. -/
theorem directives_obeyed_false : ∃ (cfg : Config) (cb : Callbacks) (items : List BindgenItem) (found : List NullApi),
    (∀ hash sigOf, FoundBy hash sigOf cfg cb items found) ∧ Directed cfg "Outer::Inner" ∧
    (∃ n d, .struct n d () ∈ found ∧ n.cppName = some "Outer::Inner") ∧
    ∀ hash sigOf, parseBindgenItems hash sigOf cfg cb items = some (.error (.cpp (.didNotGenerateAnything "Outer::Inner"))) := by
  refine ⟨exParseCfg "Outer::Inner", _, _, exFound, exFound_found _, .inl ⟨_, rfl, by simp⟩,
    ⟨_, _, List.mem_cons_of_mem _ List.mem_cons_self, rfl⟩, ?_⟩
  intro hash sigOf
  rw [directive_refused_iff]
  exact ⟨exFound, exFound_found _ _ _, [], "Outer::Inner", [], rfl, by simp, by decide +kernel, rfl⟩

/-! ## Items which vanish -/

theorem parseModItems_append (cfg : Config) (cb : Callbacks) (ns : List String) (s : ModState)
    (l m : List BindgenItem) :
    parseModItems cfg cb ns s (l ++ m) = (parseModItems cfg cb ns s l).bind fun t => parseModItems cfg cb ns t m := by
  induction l generalizing s with
  | nil => simp [parseModItems]
  | cons i l ih =>
    simp only [List.cons_append, parseModItems]
    cases parseBindgenItem cfg cb ns s i with
    | none => rfl
    | some t => exact ih t

/-- **C04 is false**: an item of a kind which is not expected, such as a union, a trait or a static, leaves no trace at
all: the result is what it would be without the item. -/
theorem unexpected_item_vanishes (hash : Config → Nat) (sigOf : RustSig → RustFnSig) (cfg : Config) (cb : Callbacks)
    (pre post : List BindgenItem) :
    parseBindgenItems hash sigOf cfg cb [.mod "root" (pre ++ .other :: post)] =
      parseBindgenItems hash sigOf cfg cb [.mod "root" (pre ++ post)] := by
  unfold parseBindgenItems
  simp only [findItemsInRoot, if_true, Option.getD_some, parseModItems_append]
  have : ∀ s : ModState, parseModItems cfg cb [] s (.other :: post) = parseModItems cfg cb [] s post := by
    intro s
    simp only [parseModItems, parseBindgenItem]
    rfl
  simp only [this]

/-- **C04 is false**: a class in the root namespace whose name is the last part of the name of any built-in type leaves
no trace, even if the built-in type is in some other namespace. -/
theorem builtin_name_vanishes (cfg : Config) (cb : Callbacks) (s : ModState) (id : Ident)
    (fs : List (Ident × Bool × Ty)) (gs : List Ident) (o : Option String) (hid : validateIdentOkForCxx id = .ok)
    (ho : cb.originalName ⟨[], id⟩ = some o) (hk : ∃ q ∈ knownTypes.allNames, q.name = id) :
    parseBindgenItem cfg cb [] s (.struct id fs gs) = some s := by
  have hk : isKnownSubstituteType ⟨[], id⟩ = true := by
    simpa [isKnownSubstituteType] using hk
  by_cases hv : ∃ stem, id = stem ++ "__bindgen_vtable"
  · simp [parseBindgenItem, parseStruct, (vtable_iff id).2 hv, ModState.take, ApiVec.extend]
  · have hv : ∀ stem, id ≠ stem ++ "__bindgen_vtable" := fun stem e => hv ⟨stem, e⟩
    obtain ⟨-, e, he⟩ := lookups_total ho ⟨[], id⟩
    simp only [parseBindgenItem]
    rw [parseStruct_named hv hid ho he, if_pos hk]
    simp [ModState.take, ApiVec.extend]

/-- A class called `Str` meets this, because cxx calls its string slices `rust::Str`. -/
example : (∃ q ∈ knownTypes.allNames, q.name = "Str") ∧ validateIdentOkForCxx "Str" = .ok := by
  rw [knownTypes_eq_lit]
  exact ⟨by decide +kernel, by decide +kernel⟩

/-! ## Names which clash -/

/-- Three functions `f()`, `f(int)` and `f1()`, in bindgen's words. -/
def exClashReports : List BindgenEvent :=
  [.foundMod 0 "root" none, .found 1 "f_bindgen_original", .cppName 1 none (some 0),
    .found 2 "f_bindgen_original1", .cppName 2 (some "f_bindgen_original") (some 0), .found 3 "f1_bindgen_original",
    .cppName 3 none (some 0)]

/-- **C49, C65**: bindgen tells `f()`, `f(int)` and `f1()` apart, but once its suffix is taken out of the names the last
two are both called `f1`, so that neither has a binding. -/
theorem overload_clash_witness (hash : Config → Nat) (sigOf : RustSig → RustFnSig) :
    (parseBindgenItems hash sigOf { excludeUtilities := true } (Callbacks.ofEvents exClashReports)
      [.mod "root" [.foreignMod [.fn { ident := "f_bindgen_original" },
        .fn { ident := "f_bindgen_original1", inputs := [.typed "a" (.path ["i32"] [])] },
        .fn { ident := "f1_bindgen_original" }]]]).map (fun r => r.toOption.map (·.apis)) =
    some (some [.function ⟨⟨[], "f"⟩, none⟩ { ident := "f", provenance := .bindgen } (),
      .ignoredItem ⟨⟨[], "f1"⟩, none⟩ .duplicateItemsFoundInParsing (some (ErrorContext.newForItem "f1"))]) := by
  have hv := (parse_ok_iff hash sigOf { excludeUtilities := true } (Callbacks.ofEvents exClashReports)
    [.mod "root" [.foreignMod [.fn { ident := "f_bindgen_original" },
        .fn { ident := "f_bindgen_original1", inputs := [.typed "a" (.path ["i32"] [])] },
        .fn { ident := "f1_bindgen_original" }]]] _).2
    ⟨_, ⟨[], _, _, rfl, .root, .cons (.foreign
      (.fn (f := { ident := "f", provenance := .bindgen })
        ⟨by decide +kernel, rfl, rfl, rfl, by decide +kernel, by decide +kernel, by decide +kernel,
          by decide +kernel, by decide +kernel, rfl, rfl, rfl, rfl, rfl⟩
      (.fn (f := { ident := "f1", provenance := .bindgen, inputs := [.typed "a" (.path ["i32"] [])] })
        ⟨by decide +kernel, rfl, rfl, rfl, by decide +kernel, by decide +kernel, by decide +kernel,
          by decide +kernel, by decide +kernel, rfl, rfl, rfl, rfl, rfl⟩
      (.fn (f := { ident := "f1", provenance := .bindgen })
        ⟨by decide +kernel, rfl, rfl, rfl, by decide +kernel, by decide +kernel, by decide +kernel,
          by decide +kernel, by decide +kernel, rfl, rfl, rfl, rfl, rfl⟩ .nil)))) .nil, rfl⟩,
      fun d hd => (hd.elim (fun ⟨_, hl, _⟩ => by cases hl) (fun h => absurd h List.not_mem_nil)), rfl⟩
  rw [hv]
  rfl

end Verif
