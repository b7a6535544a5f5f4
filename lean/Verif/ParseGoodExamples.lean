import Verif.ParseGoodProps
import Verif.FrontTotalExamples

/-!
# A header which is well named
-/

set_option autoImplicit false

namespace Verif

/-- What bindgen reports of
```cpp
namespace geo {
struct Foo {
  struct Inner { int x; };
  Inner i;
  Foo(Foo&&);
  Foo& operator=(Foo&&);
};
}
```
-/
def exGeoReports : List BindgenEvent :=
  [.foundMod 0 "root" none, .foundMod 1 "geo" (some 0), .found 2 "Foo", .cppName 2 none (some 1), .found 3 "Foo_Inner",
    .cppName 3 (some "Foo::Inner") (some 1), .found 4 "Foo_assign_bindgen_original",
    .cppName 4 (some "assign_bindgen_original") (some 1), .specialMember 4 .assignmentOperator,
    .found 5 "Foo_Foo_bindgen_original", .cppName 5 (some "Foo_bindgen_original") (some 1),
    .specialMember 5 .moveConstructor]

def exGeoFoo : Ty := .path ["root", "geo", "Foo"] []

def exGeoRef : Ty := .path ["__bindgen_marker_Reference"] [.ptr true exGeoFoo]

def exGeoRRef : Ty := .path ["__bindgen_marker_RValueReference"] [.ptr true exGeoFoo]

def exGeoFields : List (Ident × Bool × Ty) := [("i", true, .path ["root", "geo", "Foo_Inner"] [])]

def exGeoInnerFields : List (Ident × Bool × Ty) := [("x", true, exCInt)]

def exGeoAssign : BindgenFn :=
  { ident := "Foo_assign_bindgen_original", inputs := [.typed "this" (.ptr true exGeoFoo), .typed "arg1" exGeoRRef],
    output := some exGeoRef }

def exGeoMove : BindgenFn :=
  { ident := "Foo_Foo_bindgen_original", inputs := [.typed "this" (.ptr true exGeoFoo), .typed "arg1" exGeoRRef],
    output := none }

def exGeoSpace : List BindgenItem :=
  [.struct "Foo" exGeoFields [], .struct "Foo_Inner" exGeoInnerFields [], .foreignMod [.fn exGeoAssign, .fn exGeoMove],
    .impl (.path ["Foo"] []) [.fn "assign_bindgen_original" [.call ["Foo_assign_bindgen_original"]],
      .fn "Foo_bindgen_original" [.call ["Foo_Foo_bindgen_original"]]]]

def exGeoRoot : List BindgenItem := [.mod "geo" exGeoSpace]

def exGeoItems : List BindgenItem := [.mod "root" exGeoRoot]

def exGeoCfg : Config := exRunCfg ["geo::Foo"] []

/-- What each class holds and derives from, according to the POD analysis. -/
def heldClasses (cfg : Config) (cb : Callbacks) (items : List BindgenItem) : Option (List (QName × List QName)) :=
  match parseBindgenItems (fun _ => 0) exSig cfg cb items with
  | some (.ok a) =>
    match convertTypedefTargets 100 cfg cb.attrs a with
    | .done tds =>
      match analyzePodApis 100 (fun _ => 0) cfg cb.attrs tds with
      | .done (.ok v) => some (v.apis.filterMap fun x => match x with
        | .struct n _ a => some (n.name, a.fieldDefinitionDeps ++ a.bases)
        | _ => none)
      | _ => none
    | _ => none
  | _ => none

theorem exGeo_held : heldClasses exGeoCfg (.ofEvents exGeoReports) exGeoItems =
    some [(⟨["geo"], "Foo"⟩, [⟨["geo"], "Foo_Inner"⟩]), (⟨["geo"], "Foo_Inner"⟩, [⟨["autocxx"], "c_int"⟩])] := by
  decide_run

theorem exGeo_module {ns : List String} {l : List BindgenItem} (h : Module [] exGeoRoot ns l) :
    (ns = [] ∧ l = exGeoRoot) ∨ (ns = ["geo"] ∧ l = exGeoSpace) := by
  induction h with
  | self => exact .inl ⟨rfl, rfl⟩
  | nested _ hm ih =>
    rcases ih with ⟨rfl, rfl⟩ | ⟨rfl, rfl⟩
    · simp [exGeoRoot] at hm
      obtain ⟨rfl, rfl⟩ := hm
      exact .inr ⟨rfl, rfl⟩
    · simp [exGeoSpace] at hm

theorem geo_good {s : String} (h : GoodName s) : GoodQ ⟨["geo"], s⟩ := by
  intro x hx
  simp [QName.segs] at hx
  rcases hx with rfl | rfl
  · exact ⟨by decide, by decide⟩
  · exact h

theorem geo_path {s : String} (h0 : QName.ofTypePath ["root", "geo", s] = some ⟨["geo"], s⟩) (h1 : GoodName s)
    (h2 : s ≠ "Pin") : GoodTy (.path ["root", "geo", s] []) :=
  .path h0 (geo_good h1) (fun h => absurd (isPin_name h) h2) (by simp)

theorem exGeoFoo_good : GoodTy exGeoFoo := geo_path (by decide) ⟨by decide, by decide⟩ (by decide)

theorem exGeoRRef_good : GoodTy exGeoRRef := by
  refine .path (q := ⟨[], "__bindgen_marker_RValueReference"⟩) (by decide) ?_ (by simp) (by simpa using .ptr exGeoFoo_good)
  intro x hx
  simp [QName.segs] at hx
  subst hx
  exact ⟨by decide, by decide⟩

/-- What the two members have in common. -/
theorem exGeo_fn {f : FuncToConvert} {n : ApiName} {c : Ident} (hi : f.ident = c) (hc : isIdentText c = true)
    (hn : ∀ d, n.cppName = some d → GoodName d ∧ d ≠ "Pin")
    (hin : f.inputs = [.typed "this" (.ptr true exGeoFoo), .typed "arg1" exGeoRRef])
    (hout : f.output = none ∨ f.output = some exGeoRef) (hself : f.selfTy = some ⟨["geo"], "Foo"⟩)
    (hs : f.synthesizedThisType = none) (hr : MakesOrDestroys f → f.output = none)
    (ha : f.specialMember = some .assignmentOperator →
      ¬ LooksLikeCtor (.ofEvents exGeoReports) n f ⟨["geo"], "Foo"⟩) :
    FnWell (.ofEvents exGeoReports) n f where
  ident := by rw [hi]; exact hc
  cpp := hn
  inputs i hi := by
    rw [hin] at hi
    simp only [List.mem_cons, List.not_mem_nil, or_false] at hi
    rcases hi with rfl | rfl
    · exact .typed (by decide) (.ptr exGeoFoo_good) (.ptr (.path (by simp)))
    · exact .typed (by decide) exGeoRRef_good (.path (by simpa using .ptr (.path (by simp))))
  output t ht := by
    rcases hout with h | h
    · rw [h] at ht; cases ht
    · rw [h] at ht; cases ht; exact marker_good (.ptr exGeoFoo_good)
  self q hq := by rw [hself] at hq; cases hq; decide
  first _ := ⟨_, _, _, hin⟩
  static q _ hno := absurd (by rw [hin]; exact List.mem_cons_self) (hno (.ptr true exGeoFoo))
  assign h := by
    refine ⟨⟨.ptr true exGeoFoo, by rw [hin]; exact List.mem_cons_self⟩, fun q hq => ?_⟩
    have : q = ⟨["geo"], "Foo"⟩ := by
      have e : QName.ofTypePath ["root", "geo", "Foo"] = some ⟨["geo"], "Foo"⟩ := by decide
      cases hq with
      | self h => rw [hself] at h; cases h; rfl
      | stand h => rw [hs] at h; cases h
      | this h hq =>
        rw [hin] at h
        simp [exGeoFoo, exGeoRRef] at h
        obtain ⟨-, rfl, -⟩ := h
        rw [e] at hq; cases hq; rfl
      | opaqueThis h hu _ =>
        rw [hin] at h
        simp [exGeoFoo, exGeoRRef] at h
        obtain ⟨-, rfl, rfl⟩ := h
        cases hu
    subst this
    exact ha h
  move _ := ⟨_, _, _, _, _, _, hin⟩
  noResult := hr

theorem exGeo_well : WellNamed (fun _ => 0) exGeoCfg (.ofEvents exGeoReports) exGeoRoot where
  allow n := by
    intro h
    rw [Config.isOnAllowlist] at h
    split at h
    · cases h
    · cases h
  spaces ns l h := by
    rcases exGeo_module h with ⟨rfl, -⟩ | ⟨rfl, -⟩
    · intro x hx; cases hx
    · intro x hx; rw [List.mem_singleton.1 hx]; exact ⟨by decide, by decide⟩
  items ns l h i hi := by
    rcases exGeo_module h with ⟨rfl, rfl⟩ | ⟨rfl, rfl⟩
    · rw [List.mem_singleton.1 hi]
      exact ⟨(fun _ h => by cases h), (fun _ _ _ h => by cases h), (fun _ _ _ h => by cases h), (fun _ _ _ _ h => by cases h)⟩
    · simp only [exGeoSpace, List.mem_cons, List.not_mem_nil, or_false] at hi
      rcases hi with rfl | rfl | rfl | rfl
      · refine ⟨?_, ?_, (fun _ _ _ h => by cases h), (fun _ _ _ _ h => by cases h)⟩
        · intro id hid _
          cases hid
          refine ⟨⟨by decide, by decide⟩, fun c hc => ?_⟩
          have e : (Callbacks.ofEvents exGeoReports).originalName ⟨["geo"], "Foo"⟩ = some none := by decide
          rw [e] at hc; cases hc
        · intro id fs gs h
          cases h
          refine ⟨fun h => absurd (isPin_name h) (by decide), ?_, ?_⟩
          · simp [exGeoFields]
            exact geo_path (by decide) ⟨by decide, by decide⟩ (by decide)
          · rintro f hf q v ⟨id, segs, args, rfl, hr, -⟩
            have := (startsWith_iff_append id "_base").2 hr
            clear hr
            simp [exGeoFields] at hf
            obtain ⟨rfl, -⟩ := hf
            exact absurd this (by decide)
      · refine ⟨?_, ?_, (fun _ _ _ h => by cases h), (fun _ _ _ _ h => by cases h)⟩
        · intro id hid _
          cases hid
          refine ⟨⟨by decide, by decide⟩, fun c hc => ?_⟩
          have e : (Callbacks.ofEvents exGeoReports).originalName ⟨["geo"], "Foo_Inner"⟩ = some (some "Foo::Inner") := by
            decide
          rw [e] at hc; cases hc
          refine ⟨⟨["Foo"], "Inner"⟩, ?_, by decide, by decide⟩
          intro x hx
          simp [QName.segs] at hx
          rcases hx with rfl | rfl <;> exact ⟨by decide, by decide⟩
        · intro id fs gs h
          cases h
          refine ⟨fun h => absurd (isPin_name h) (by decide), ?_, ?_⟩
          · simp [exGeoInnerFields]
            exact exCInt_good
          · rintro f hf q v ⟨id, segs, args, rfl, hr, -⟩
            have := (startsWith_iff_append id "_base").2 hr
            clear hr
            simp [exGeoInnerFields, exCInt] at hf
            obtain ⟨rfl, -⟩ := hf
            exact absurd this (by decide)
      · exact ⟨(fun _ _ h => absurd rfl (h _)), (fun _ _ _ h => by cases h), (fun _ _ _ h => by cases h),
          (fun _ _ _ _ h => by cases h)⟩
      · exact ⟨(fun _ h => by cases h), (fun _ _ _ h => by cases h), (fun _ _ _ h => by cases h),
          (fun _ _ _ _ h => by cases h)⟩
  fns ns l h m hm b hb f hf := by
    rcases exGeo_module h with ⟨rfl, rfl⟩ | ⟨rfl, rfl⟩
    · simp [exGeoRoot] at hm
    · simp [exGeoSpace] at hm
      subst hm
      obtain ⟨h1, h2, h3, -, -, -, h4, h5, -, -, -, h6, -⟩ := hf
      simp at hb
      rcases hb with rfl | rfl
      · have hid : f.ident = "Foo_assign" := h1.trans (by decide)
        rw [hid] at h4 h5
        have e4 : (Callbacks.ofEvents exGeoReports).specialMemberOf ⟨["geo"], "Foo_assign"⟩ =
          some (some .assignmentOperator) := by decide
        have e5 : (Callbacks.ofEvents exGeoReports).originalName ⟨["geo"], "Foo_assign"⟩ = some (some "assign") := by decide
        have h4 := (Option.some.inj (h4.symm.trans e4))
        have h5 := (Option.some.inj (h5.symm.trans e5))
        refine exGeo_fn hid (by decide) ?_ h2 (.inr h3) ?_ h6 ?_ ?_
        · intro d hd
          dsimp only at hd
          rw [h5] at hd
          cases hd
          exact ⟨⟨by decide, by decide⟩, by decide⟩
        · dsimp only
          rw [hid]
          decide
        · rintro (h | h | h) <;> · dsimp only at h; rw [h4] at h; cases h
        · rintro - ⟨x, ideal, hx, hi, hne⟩
          dsimp only at hi
          rw [hid, h5] at hi
          have e : idealRustName "Foo_assign" (some "assign") = .done "assign" := by decide +kernel
          rw [e] at hi
          cases hi
          cases hx with
          | name => exact hne (by decide)
          | nested h _ =>
            have e : (Callbacks.ofEvents exGeoReports).originalName ⟨["geo"], "Foo"⟩ = some none := by decide
            rw [e] at h
            cases h
      · have hid : f.ident = "Foo_Foo" := h1.trans (by decide)
        rw [hid] at h4 h5
        have e4 : (Callbacks.ofEvents exGeoReports).specialMemberOf ⟨["geo"], "Foo_Foo"⟩ =
          some (some .moveConstructor) := by decide
        have e5 : (Callbacks.ofEvents exGeoReports).originalName ⟨["geo"], "Foo_Foo"⟩ = some (some "Foo") := by decide
        have h4 := (Option.some.inj (h4.symm.trans e4))
        have h5 := (Option.some.inj (h5.symm.trans e5))
        refine exGeo_fn hid (by decide) ?_ h2 (.inl h3) ?_ h6 (fun _ => h3) ?_
        · intro d hd
          dsimp only at hd
          rw [h5] at hd
          cases hd
          exact ⟨⟨by decide, by decide⟩, by decide⟩
        · dsimp only
          rw [hid]
          decide
        · intro h
          dsimp only at h
          rw [h4] at h
          cases h
  concretes e he := by simp [exGeoCfg, exRunCfg] at he
  subs sc hsc := by simp [exGeoCfg, exRunCfg] at hsc

theorem exGeo_noself {apis : ApiVec Unit Unit Unit} {tds : ApiVec TypedefAnalysis Unit Unit}
    {v : ApiVec TypedefAnalysis PodAnalysis Unit}
    (h : parseBindgenItems (fun _ => 0) exSig exGeoCfg (.ofEvents exGeoReports) exGeoItems = some (.ok apis))
    (ht : convertTypedefTargets 100 exGeoCfg (Callbacks.ofEvents exGeoReports).attrs apis = .done tds)
    (hv : analyzePodApis 100 (fun _ => 0) exGeoCfg (Callbacks.ofEvents exGeoReports).attrs tds = .done (.ok v)) :
    NoSelfHolding v.apis := by
  have hc := exGeo_held
  rw [heldClasses, h] at hc
  simp only [ht, hv] at hc
  have hc := Option.some.inj hc
  refine ⟨fun q => if q = ⟨["geo"], "Foo"⟩ then 2 else if q = ⟨["geo"], "Foo_Inner"⟩ then 1 else 0, fun n d a hm q hq => ?_⟩
  have : (n.name, a.fieldDefinitionDeps ++ a.bases) ∈
      ([(⟨["geo"], "Foo"⟩, [⟨["geo"], "Foo_Inner"⟩]), (⟨["geo"], "Foo_Inner"⟩, [⟨["autocxx"], "c_int"⟩])] :
        List (QName × List QName)) := by
    rw [← hc]
    exact List.mem_filterMap.2 ⟨_, hm, rfl⟩
  simp only [List.mem_cons, List.not_mem_nil, or_false, Prod.mk.injEq] at this
  rcases this with ⟨e1, e2⟩ | ⟨e1, e2⟩ <;>
  · rw [e2] at hq
    rw [e1, List.mem_singleton.1 hq]
    decide

/-- Non-trivial instance of `convert_header_safe`: the header above, whatever the policy. -/
example (policy : UnsafePolicy) (force : Bool) (o : CppOptions) (a b : String) (l : List String) :
    convertAll 100 (fun _ => 0) exSig policy exGeoCfg force (.ofEvents exGeoReports) (some exGeoItems) o a b l ≠ .panic := by
  refine convert_header_safe (r := 0) rfl (by decide) rfl .root ?_ exGeo_well (fun _ _ _ h ht hv => exGeo_noself h ht hv)
  intro ns l h i hi
  rcases exGeo_module h with ⟨rfl, rfl⟩ | ⟨rfl, rfl⟩
  · rw [List.mem_singleton.1 hi]; trivial
  · simp only [exGeoSpace, List.mem_cons, List.not_mem_nil, or_false] at hi
    rcases hi with rfl | rfl | rfl | rfl
    · exact .inr (by decide)
    · exact .inr (by decide)
    · trivial
    · exact (fun h => by cases h)

end Verif
