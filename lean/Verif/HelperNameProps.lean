import Verif.CppMadeProps
import Verif.RsUnsafeProps

/-!
# C45, C14: the names of what belongs to a class

The functions which get and give back memory for a class, and the destructor C++ provides by itself, are called like the
class with something after it. `cxx` refuses names with two underscores in a row, and so these functions are lost exactly
for classes whose names end in one.
-/

set_option autoImplicit false

namespace Verif

/-! ## Specification -/

/-- The name ends in an underscore. -/
def EndsInUnderscore (s : String) : Prop := ∃ t, s = t ++ "_"

/-- The name has two underscores in a row. -/
def TwoUnderscores (s : String) : Prop := ∃ t u, s = t ++ "__" ++ u

/-- The name belongs to what autocxx and bindgen use among themselves. -/
def IsMarkerName (s : String) : Prop := ∃ t, s = "__bindgen_marker" ++ t

/-! ## The names of one function -/

/-- The name in the bridge has the name in Rust in it. -/
theorem bridge_name_within (t : BridgeNameTracker) (r : BridgeReq) : ∃ p u, (t.getName r).2 = p ++ r.found ++ u := by
  have hp : ∃ u, r.plain = r.found ++ u := by
    rw [BridgeReq.plain]
    split
    · rename_i h
      exact ⟨"_autocxx", by rw [h]; rfl⟩
    · exact ⟨"", by simp⟩
  have hq : ∃ p u, r.qualified = p ++ r.found ++ u := by
    obtain ⟨u, hu⟩ := hp
    rw [BridgeReq.qualified, ← List.append_assoc]
    rcases joinU_last (r.ns ++ r.ty.toList) r.plain with h | ⟨p, h⟩
    · exact ⟨"", u, by rw [h, hu]; simp⟩
    · exact ⟨p ++ "_", u, by rw [h, hu]; simp [String.append_assoc]⟩
  have hg := bridge_getName t r
  generalize (t.getName r).1 = t', (t.getName r).2 = n at hg
  cases hg with
  | plain =>
    obtain ⟨u, hu⟩ := hp
    exact ⟨"", u, by rw [hu]; simp⟩
  | qualified => exact hq
  | numbered =>
    obtain ⟨p, u, h⟩ := hq
    refine ⟨p, u ++ ("_autocxx" ++ dec (t.cnt r.qualified)), ?_⟩
    rw [numbered, h]
    simp [String.append_assoc]

variable {env : FnEnv} {s s' : FnState} {name n : ApiName} {f : FuncToConvert} {soph : Sophistication}
  {pre : Option String} {a : FnAnalysis}

/-- **C65**: however a function is renamed, the name it has in the bridge has the name it has in Rust in it. -/
theorem rust_name_within (h : analyzeForeignFn env s name f soph pre = .done (s', a, n)) :
    ∃ p u, a.cxxbridgeName = p ++ a.rustName ++ u := by
  obtain ⟨t⟩ := analyze_steps h
  obtain ⟨w, final, _, _, hf, _, _, _, ha⟩ := finish_inv t.hfin
  have hb := bridge_name_within t.s3.bridge { ty := t.kn.kind.bridgeTy, found := t.kn.rustName, ns := name.name.ns }
  rw [t.hbridge] at hb
  obtain ⟨p, u, hb⟩ := hb
  dsimp only at hb
  have h1 : a.cxxbridgeName = final := congrArg FnAnalysis.cxxbridgeName ha
  have h2 : a.rustName = t.kn.rustName := congrArg FnAnalysis.rustName ha
  rw [h1, h2, hf]
  split
  · have hw : ∃ v, wrapperName env t.bridgeName = t.bridgeName ++ v := by
      rw [wrapperName, uniquify]
      simp only [String.append_assoc]
      exact ⟨_, rfl⟩
    obtain ⟨v, hw⟩ := hw
    exact ⟨p, u ++ v, by rw [hw, hb]; simp only [String.append_assoc]⟩
  · exact ⟨p, u, hb⟩

/-- What comes from the count of names starts with the name asked for. -/
theorem tracked_starts {ns : List String} {ty : Option String} {base : String} {s1 s2 : FnState} {m : String}
    (h : Tracked s1 ns ty base s2 m) : ∃ u, m = base ++ u := by
  rw [h.1]
  generalize (AMap.get? s1.overloads ns).getD {} = o
  cases ty with
  | none =>
    rw [OverloadTracker.getName, bumpOffset]
    dsimp only
    split
    · exact ⟨"", by simp⟩
    · exact ⟨_, rfl⟩
  | some ty =>
    rw [OverloadTracker.getName, bumpOffset]
    dsimp only
    split
    · exact ⟨"", by simp⟩
    · exact ⟨_, rfl⟩

/-- Allocators, deallocators and destructors are called what they were found as, with a number at most. -/
theorem helper_ident_kept (h : analyzeForeignFn env s name f soph pre = .done (s', a, n)) (hx : a.ignoreReason = none)
    (hc : name.cppName = none) (hk : ∃ k q d, a.kind = .traitMethod k q d ∧
      (k = .alloc ∨ k = .dealloc ∨ k = .destructor ∧ pre = none)) : ∃ u, a.rustName = f.ident ++ u := by
  obtain ⟨ideal, base, ref, s1, s2, hi, hb, hn, -, -⟩ := bound_as h hx
  rw [hc] at hi
  cases hi
  obtain ⟨k, q, d, hk, hkk⟩ := hk
  rw [hk] at hb hn
  have hbase : base = f.ident := by
    generalize hg : FnKind.traitMethod k q d = g at hb
    cases hb with
    | alloc => rfl
    | dealloc => rfl
    | destructor => rfl
    | cast => rfl
    | move => cases hg; rcases hkk with e | e | ⟨e, -⟩ <;> cases e
    | copy => cases hg; rcases hkk with e | e | ⟨e, -⟩ <;> cases e
    | _ => cases hg
  rw [hbase] at hn
  cases hn with
  | cast ht => exact tracked_starts ht
  | storage _ ht => exact tracked_starts ht
  | given _ hk' hp =>
    obtain ⟨-, h1, h2⟩ := hk' _ _ _ rfl
    rcases hkk with e | e | ⟨-, e⟩
    · exact absurd e h1
    · exact absurd e h2
    · rw [e] at hp; cases hp
  | member _ _ ht => exact tracked_starts ht

/-- A name which `cxx` takes has no two underscores in a row. -/
theorem ok_underscores {m : String} (h : validateIdentOkForCxx m = .ok) (ht : TwoUnderscores m) : IsMarkerName m := by
  rw [validateIdentOkForCxx] at h
  split at h
  · split at h
    · cases h
    · split at h
      · cases h
      · split at h
        · cases h
        · rename_i hc
          have h1 : containsStr m "__" = true := by
            rw [containsStr_iff]
            obtain ⟨t, u, rfl⟩ := ht
            exact ⟨t.toList, u.toList, by simp⟩
          rw [h1] at hc
          simp only [Bool.true_and, Bool.not_eq_true, Bool.not_eq_false'] at hc
          obtain ⟨t, ht⟩ := (startsWith_iff_append _ _).1 hc
          exact ⟨t, ht⟩
  · rename_i hne
    rw [h] at hne
    exact absurd rfl hne

/-- **C45, C14**: an allocator, a deallocator or a destructor which is offered is not found under a name with two
underscores in a row. -/
theorem helper_underscores (h : analyzeForeignFn env s name f soph pre = .done (s', a, n)) (hx : a.ignoreReason = none)
    (hc : name.cppName = none) (hk : ∃ k q d, a.kind = .traitMethod k q d ∧
      (k = .alloc ∨ k = .dealloc ∨ k = .destructor ∧ pre = none)) (ht : TwoUnderscores f.ident) :
    IsMarkerName a.cxxbridgeName := by
  obtain ⟨t⟩ := analyze_steps h
  obtain ⟨_, _, _, _, _, hok⟩ := exposed_parts t hx
  refine ok_underscores hok ?_
  obtain ⟨p, u, h1⟩ := rust_name_within h
  obtain ⟨v, h2⟩ := helper_ident_kept h hx hc hk
  obtain ⟨x, y, h3⟩ := ht
  refine ⟨p ++ x, y ++ v ++ u, ?_⟩
  rw [h1, h2, h3]
  simp only [String.append_assoc]

theorem two_underscores {s rest : String} (h : EndsInUnderscore s) : TwoUnderscores (s ++ "_" ++ rest) := by
  obtain ⟨t, rfl⟩ := h
  refine ⟨t, rest, ?_⟩
  have : ("__" : String) = "_" ++ "_" := by decide
  rw [this]
  simp only [String.append_assoc]

/-! ## Whole runs -/

namespace ConvertStages

variable {fuel : Nat} {hash : Config → Nat} {sigOf : RustSig → RustFnSig} {policy : UnsafePolicy} {cfg : Config} {force : Bool}
  {cb : Callbacks} {items : List BindgenItem} {out : FnApiVec}
  (p : ConvertStages fuel hash sigOf policy cfg force cb items out)
include p

/-- **C45 fails for every class whose name ends in an underscore**: no run delivers functions which get or give back memory
for such a class. -/
theorem underscore_storage {n : ApiName} {f : FuncToConvert} {a : FnAnalysis} (h : .function n f a ∈ out.apis)
    {ty : QName} (hf : Allocates f ty ∨ Frees f ty) (hu : EndsInUnderscore ty.name) : IsMarkerName n.name.name := by
  have hs : ∃ x, f.syntheticCpp = some x := by
    rcases hf with hf | hf
    · exact ⟨_, hf.cpp⟩
    · exact ⟨_, hf.cpp⟩
  obtain ⟨x, hs⟩ := hs
  obtain ⟨-, hx, env, s, s', name, soph, pre, hr, hc⟩ := p.delivered_made_run h hs
  have hn : n.name.name = a.cxxbridgeName := by
    obtain ⟨t⟩ := analyze_steps hr
    obtain ⟨w, final, _, _, _, _, _, hn, ha⟩ := finish_inv t.hfin
    rw [hn]
    exact (congrArg FnAnalysis.cxxbridgeName ha).symm
  rw [hn]
  obtain ⟨ideal, base, ref, s1, s2, hi, hb, -, -, -⟩ := bound_as hr hx
  refine helper_underscores hr hx hc ?_ ?_
  · generalize a.kind = k at hb
    rcases hf with hf | hf
    · have ht := hf.trait
      cases hb with
      | alloc => exact ⟨_, _, _, rfl, .inl rfl⟩
      | dealloc h => rw [h] at ht; cases ht
      | cast h => rw [h] at ht; cases ht
      | _ h => rw [h] at ht; cases ht
    · have ht := hf.trait
      cases hb with
      | alloc h => rw [h] at ht; cases ht
      | dealloc => exact ⟨_, _, _, rfl, .inr (.inl rfl)⟩
      | cast h => rw [h] at ht; cases ht
      | _ h => rw [h] at ht; cases ht
  · rcases hf with hf | hf
    · rw [hf.ident]
      have := two_underscores (rest := "autocxx_alloc") hu
      rw [String.append_assoc] at this
      exact this
    · rw [hf.ident]
      have := two_underscores (rest := "autocxx_free") hu
      rw [String.append_assoc] at this
      exact this

end ConvertStages

/-- **C14, C13**: the destructor C++ provides by itself is refused for every class whose name ends in an underscore. -/
theorem underscore_destructor {fuel : Nat} {hash : Config → Nat} {policy : UnsafePolicy} {cfg : Config} {force : Bool}
    {apis : List PodApi} {out : ApiVec TypedefAnalysis PodAndConstructorAnalysis FnAnalysis}
    (p : FnPassStages fuel hash policy cfg force apis out) {r : FnRun} (hr : r ∈ p.runs)
    (hp : r.pre = none) {key q : QName} (hname : r.name = specialName p.env q .destructor)
    (hf : r.f = specialFn p.env key q .destructor) (hu : EndsInUnderscore q.name) :
    r.a.ignoreReason ≠ none ∨ IsMarkerName r.a.cxxbridgeName := by
  by_cases hx : r.a.ignoreReason = none
  · right
    have hk := p.trace.ok r hr
    have hok : analyzeForeignFn p.env r.s r.name r.f r.soph r.pre = .done (r.s', r.a, r.n) := hk
    obtain ⟨ideal, base, ref, s1, s2, hi, hb, -, -, -⟩ := bound_as hok hx
    refine helper_underscores hok hx (by rw [hname]; rfl) ?_ ?_
    · rw [hf] at hb
      generalize r.a.kind = k at hb
      cases hb with
      | destructor => exact ⟨_, _, _, rfl, .inr (.inr ⟨rfl, hp⟩)⟩
      | alloc h => cases h
      | dealloc h => cases h
      | cast h => cases h
      | free _ hf => cases hf.2
      | move _ _ h => cases h
      | copy _ _ h => cases h
      | copyOfMutable _ _ h => cases h
      | constructor_ _ _ _ _ h => exact absurd rfl h
      | static _ _ _ _ h => exact absurd rfl h
      | method _ _ _ _ h => exact absurd rfl h
      | virtual_ _ _ _ _ h => exact absurd rfl h
      | pureVirtual _ _ _ _ h => exact absurd rfl h
    · rw [hf]
      have e : (specialFn p.env key q .destructor).ident = q.name ++ "_" ++
          ("synthetic_destructor" ++ "_" ++ "0x" ++ String.ofList (Nat.toDigits 16 (p.env.hash p.env.conv.cfg))) := by
        show uniquify p.env (q.name ++ "_synthetic_" ++ "destructor") = _
        rw [uniquify, show ("_synthetic_" : String) = "_" ++ "synthetic_" from by decide,
          show ("synthetic_destructor" : String) = "synthetic_" ++ "destructor" from by decide]
        simp only [String.append_assoc]
      rw [e]
      exact two_underscores hu
  · exact .inl hx

end Verif
