import Verif.FrontTotalProps
import Verif.PipelineExamples
import Verif.FnPassTotalExamples

/-!
# No pass panics: an example
-/

set_option autoImplicit false

namespace Verif

/-- What bindgen reports of
```cpp
struct P { int x; P* next; };
typedef P Q;
struct Foo : P { Q q; Foo* go(Foo* other); };
```
-/
def exSafeReports : List BindgenEvent :=
  [.foundMod 0 "root" none, .found 1 "P", .cppName 1 none (some 0), .found 2 "Foo", .cppName 2 none (some 0),
    .found 3 "Foo_go_bindgen_original", .cppName 3 (some "go_bindgen_original") (some 0), .found 4 "Q",
    .cppName 4 none (some 0)]

def exRootP : Ty := .path ["root", "P"] []

def exFieldsP : List (Ident × Bool × Ty) := [("x", true, exCInt), ("next", true, .ptr true exRootP)]

def exFieldsFoo : List (Ident × Bool × Ty) := [("_base", true, exRootP), ("q", true, .path ["root", "Q"] [])]

/-- What bindgen writes for it. -/
def exSafeItems : List BindgenItem :=
  [.mod "root"
    [.struct "P" exFieldsP [], .struct "Foo" exFieldsFoo [], .type "Q" exRootP [],
      .foreignMod [.fn
        { ident := "Foo_go_bindgen_original", inputs := [.typed "this" exFooPtr, .typed "other" exFooPtr],
          output := some exFooPtr }],
      .impl (.path ["Foo"] []) [.fn "go_bindgen_original" [.call ["Foo_go_bindgen_original"]]]]]

def exSafeFn : FuncToConvert :=
  { ident := "Foo_go", inputs := [.typed "this" exFooPtr, .typed "other" exFooPtr], output := some exFooPtr,
    originalName := some "go", selfTy := some ⟨[], "Foo"⟩ }

/-- What the parser finds. -/
def exSafeApis : List NullApi :=
  [.struct ⟨⟨[], "P"⟩, none⟩ { fields := exFieldsP } (), .struct ⟨⟨[], "Foo"⟩, none⟩ { fields := exFieldsFoo } (),
   .typedef ⟨⟨[], "Q"⟩, none⟩ { isUse := false, ty := exRootP, generics := [] } none (),
   .function ⟨⟨[], "Foo_go"⟩, some "go"⟩ exSafeFn ()]

def exSafeCfg : Config := exRunCfg ["P", "Foo"] []

def exSafeParse : Option (Except ConvertErr (ApiVec Unit Unit Unit)) :=
  parseBindgenItems (fun _ => 0) exSig exSafeCfg (.ofEvents exSafeReports) exSafeItems

def parsedApis : Option (Except ConvertErr (ApiVec Unit Unit Unit)) → Option (List NullApi)
  | some (.ok a) => some a.apis
  | _ => none

theorem exSafe_parsed : parsedApis exSafeParse = some exSafeApis := by decide_run

/-- The classes after POD analysis, and what they hold and derive from. -/
def podClasses (cb : Callbacks) (r : Option (Except ConvertErr (ApiVec Unit Unit Unit))) : Option (List (QName × List QName)) :=
  match r with
  | some (.ok a) =>
    match convertTypedefTargets 100 exSafeCfg cb.attrs a with
    | .done tds =>
      match analyzePodApis 100 (fun _ => 0) exSafeCfg cb.attrs tds with
      | .done (.ok v) => some (v.apis.filterMap fun x => match x with
        | .struct n _ a => some (n.name, a.fieldDefinitionDeps ++ a.bases)
        | _ => none)
      | _ => none
    | _ => none
  | _ => none

theorem exSafe_classes : podClasses (.ofEvents exSafeReports) exSafeParse =
    some [(⟨[], "P"⟩, [⟨["autocxx"], "c_int"⟩]), (⟨[], "Foo"⟩, [⟨[], "P"⟩, ⟨[], "P"⟩])] := by decide_run

theorem root_path {s : String} (h0 : QName.ofTypePath ["root", s] = some ⟨[], s⟩) (h1 : isIdentText s = true)
    (h2 : leadsWell s.toList = true) (h3 : s ≠ "Pin") : GoodTy (.path ["root", s] []) :=
  .path (q := ⟨[], s⟩) h0 (root_good h1 h2) (fun h => absurd (isPin_name h) h3) (by simp)

theorem exRootP_good : GoodTy exRootP := root_path (by decide) (by decide) (by decide) (by decide)

theorem exCInt_good : GoodTy exCInt := by
  refine .path (q := ⟨["std", "os", "raw"], "c_int"⟩) (by decide) ?_ (fun h => absurd (isPin_name h) (by decide)) (by simp)
  intro x hx
  simp [QName.segs] at hx
  rcases hx with rfl | rfl | rfl | rfl <;> exact ⟨by decide, by decide⟩

theorem exSafe_found : FoundItems (fun _ => 0) exSafeCfg exSafeApis where
  allow n := by
    intro h
    rw [Config.isOnAllowlist] at h
    split at h
    · cases h
    · cases h
  names x hx hns c hc := by
    simp only [exSafeApis, List.mem_cons, List.not_mem_nil, or_false] at hx
    rcases hx with rfl | rfl | rfl | rfl <;> cases hc
    exact ⟨by decide, by decide⟩
  emits x hx hf s hs := by
    simp only [exSafeApis, List.mem_cons, List.not_mem_nil, or_false] at hx
    rcases hx with rfl | rfl | rfl | rfl <;> revert hs <;> revert s <;> first | decide | cases hf
  typedefs n i o u h := by
    simp [exSafeApis] at h
    obtain ⟨rfl, rfl, -⟩ := h
    exact ⟨root_good (by decide) (by decide), exRootP_good, .path (by simp), fun h => by cases h⟩
  concretes n r c h := by simp [exSafeApis] at h
  nested q x h := by
    obtain ⟨n, -, h, hf⟩ := h
    have : n = ⟨⟨[], "P"⟩, none⟩ ∨ n = ⟨⟨[], "Foo"⟩, none⟩ := by
      rcases h with ⟨d, a, h⟩ | ⟨i, h⟩
      · simp [exSafeApis] at h; rcases h with h | h <;> simp [h]
      · simp [exSafeApis] at h
    have hno : finalSegment n.effectiveCppName = none := by
      rcases this with rfl | rfl <;> decide +kernel
    rw [hno] at hf
    cases hf
  subs n sup h := by simp [exSafeApis] at h
  nosub x hx := by
    simp only [exSafeApis, List.mem_cons, List.not_mem_nil, or_false] at hx
    rcases hx with rfl | rfl | rfl | rfl <;> trivial
  fns n f u h nested _ := by
    simp [exSafeApis] at h
    obtain ⟨rfl, rfl⟩ := h
    exact exGood_fn rfl (by decide) (by simp; decide) ⟨_, rfl, by simp⟩ (by simp [exSafeFn]) rfl rfl rfl rfl
      (fun _ c hc => by cases hc; exact ⟨by decide, by decide⟩) rfl rfl
  classes n d u h := by
    have hp : ¬ IsPin ⟨[], "P"⟩ := fun h => absurd (isPin_name h) (by decide)
    simp [exSafeApis] at h
    rcases h with ⟨rfl, rfl⟩ | ⟨rfl, rfl⟩
    · refine ⟨root_good (by decide) (by decide), hp, ?_, ?_⟩
      · simp [exFieldsP]
        exact ⟨exCInt_good, .ptr exRootP_good⟩
      · rintro f hf q v ⟨id, segs, args, rfl, hr, -⟩
        have := (startsWith_iff_append id "_base").2 hr
        clear hr
        simp [exFieldsP, exCInt] at hf
        obtain ⟨rfl, -⟩ := hf
        exact absurd this (by decide)
    · refine ⟨root_good (by decide) (by decide), fun h => absurd (isPin_name h) (by decide), ?_, ?_⟩
      · simp [exFieldsFoo]
        exact ⟨exRootP_good, root_path (by decide) (by decide) (by decide) (by decide)⟩
      · rintro f hf q v ⟨id, segs, args, rfl, hr, hq⟩
        have := (startsWith_iff_append id "_base").2 hr
        clear hr
        simp [exFieldsFoo, exRootP] at hf
        rcases hf with ⟨-, -, rfl, -⟩ | ⟨e, -⟩
        · have : q = ⟨[], "P"⟩ := by
            have e : QName.ofTypePath ["root", "P"] = some ⟨[], "P"⟩ := by decide
            rw [e] at hq; cases hq; rfl
          rw [this]; exact hp
        · rw [e] at this
          exact absurd this (by decide)

/-- No class of the header holds itself. -/
theorem exSafe_noself {apis : ApiVec Unit Unit Unit} {tds : ApiVec TypedefAnalysis Unit Unit}
    {v : ApiVec TypedefAnalysis PodAnalysis Unit}
    (h : parseBindgenItems (fun _ => 0) exSig exSafeCfg (.ofEvents exSafeReports) exSafeItems = some (.ok apis))
    (ht : convertTypedefTargets 100 exSafeCfg (Callbacks.ofEvents exSafeReports).attrs apis = .done tds)
    (hv : analyzePodApis 100 (fun _ => 0) exSafeCfg (Callbacks.ofEvents exSafeReports).attrs tds = .done (.ok v)) :
    NoSelfHolding v.apis := by
  have hclasses := exSafe_classes
  unfold exSafeParse at hclasses
  rw [h] at hclasses
  simp only [podClasses, ht, hv] at hclasses
  have hc := Option.some.inj hclasses
  refine ⟨fun q => if q = ⟨[], "Foo"⟩ then 2 else if q = ⟨[], "P"⟩ then 1 else 0, fun n d a hm q hq => ?_⟩
  have : (n.name, a.fieldDefinitionDeps ++ a.bases) ∈
      ([(⟨[], "P"⟩, [⟨["autocxx"], "c_int"⟩]), (⟨[], "Foo"⟩, [⟨[], "P"⟩, ⟨[], "P"⟩])] : List (QName × List QName)) := by
    rw [← hc]
    exact List.mem_filterMap.2 ⟨_, hm, rfl⟩
  simp only [List.mem_cons, List.not_mem_nil, or_false, Prod.mk.injEq] at this
  rcases this with ⟨e1, e2⟩ | ⟨e1, e2⟩
  · rw [e2] at hq
    rw [e1, List.mem_singleton.1 hq]
    decide
  · rw [e2] at hq
    have : q = ⟨[], "P"⟩ := by simpa using hq
    rw [e1, this]
    decide

theorem exSafe_found_of {apis : ApiVec Unit Unit Unit}
    (h : parseBindgenItems (fun _ => 0) exSig exSafeCfg (.ofEvents exSafeReports) exSafeItems = some (.ok apis)) :
    FoundItems (fun _ => 0) exSafeCfg apis.apis := by
  have hparse := exSafe_parsed
  unfold exSafeParse at hparse
  rw [h] at hparse
  rw [Option.some.inj hparse]
  exact exSafe_found

/-- Non-trivial instance of `convert_safe`: the header above, whatever the policy. -/
example (policy : UnsafePolicy) (force : Bool) :
    convertApisFrom 100 (fun _ => 0) exSig policy exSafeCfg force (.ofEvents exSafeReports) (some exSafeItems) ≠ .panic := by
  have hparse := exSafe_parsed
  unfold exSafeParse at hparse
  refine convert_safe (fun h => ?_) (fun _ h => exSafe_found_of h) (fun _ _ _ h ht hv => exSafe_noself h ht hv)
  rw [h] at hparse
  cases hparse

end Verif
