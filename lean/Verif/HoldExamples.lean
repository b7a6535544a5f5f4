import Verif.HoldProps
import Verif.ParseGoodExamples

/-!
# A header whose types are in order
-/

set_option autoImplicit false

namespace Verif

def geoDepth (q : QName) : Nat := if q = ⟨["geo"], "Foo"⟩ then 2 else if q = ⟨["geo"], "Foo_Inner"⟩ then 1 else 0

theorem geoDepth_zero {q : QName} (h1 : q ≠ ⟨["geo"], "Foo"⟩) (h2 : q ≠ ⟨["geo"], "Foo_Inner"⟩) : geoDepth q = 0 := by
  rw [geoDepth, if_neg h1, if_neg h2]

theorem exGeo_ordered : HeldInOrder exGeoCfg exGeoRoot := by
  refine ⟨geoDepth, ⟨?_, ?_, ?_⟩⟩
  · rintro q (⟨d, hd⟩ | ⟨hns, -⟩)
    · have e1 : knownGet ⟨["geo"], "Foo"⟩ = none := by decide_known
      have e2 : knownGet ⟨["geo"], "Foo_Inner"⟩ = none := by decide_known
      exact geoDepth_zero (fun e => by rw [e, e1] at hd; cases hd) (fun e => by rw [e, e2] at hd; cases hd)
    · exact geoDepth_zero (fun e => by rw [e] at hns; cases hns) (fun e => by rw [e] at hns; cases hns)
  · intro n t h
    cases h with
    | type hm h =>
      rcases exGeo_module hm with ⟨rfl, rfl⟩ | ⟨rfl, rfl⟩
      · simp [exGeoRoot] at h
      · simp [exGeoSpace] at h
    | use hm h =>
      rcases exGeo_module hm with ⟨rfl, rfl⟩ | ⟨rfl, rfl⟩
      · simp [exGeoRoot] at h
      · simp [exGeoSpace] at h
  · intro n t h
    cases h with
    | mk hm h hf =>
      rcases exGeo_module hm with ⟨rfl, rfl⟩ | ⟨rfl, rfl⟩
      · simp [exGeoRoot] at h
      · simp only [exGeoSpace, List.mem_cons, List.not_mem_nil, or_false, BindgenItem.struct.injEq, reduceCtorEq] at h
        rcases h with ⟨rfl, rfl, rfl⟩ | ⟨rfl, rfl, rfl⟩
        · rw [List.mem_singleton.1 hf]
          intro q hq
          cases hq with
          | path h =>
            rcases h with h | h
            · have e : QName.ofTypePath ["root", "geo", "Foo_Inner"] = some ⟨["geo"], "Foo_Inner"⟩ := by decide
              rw [e] at h; cases h; decide
            · have e : QName.ofTypePath ("output" :: ["geo"] ++ ["root", "geo", "Foo_Inner"]) =
                some ⟨["geo", "root", "geo"], "Foo_Inner"⟩ := by decide
              rw [e] at h; cases h; decide
        · rw [List.mem_singleton.1 hf]
          intro q hq
          cases hq with
          | path h =>
            rcases h with h | h
            · have : q ≠ ⟨["geo"], "Foo"⟩ ∧ q ≠ ⟨["geo"], "Foo_Inner"⟩ := by
                refine ⟨?_, ?_⟩ <;> (rintro rfl; exact absurd h (by decide))
              rw [geoDepth_zero this.1 this.2]; decide
            · have : q ≠ ⟨["geo"], "Foo"⟩ ∧ q ≠ ⟨["geo"], "Foo_Inner"⟩ := by
                refine ⟨?_, ?_⟩ <;> (rintro rfl; exact absurd h (by decide))
              rw [geoDepth_zero this.1 this.2]; decide

/-- Non-trivial instance of `convert_ordered_safe`: that header, whatever the policy and the bound on conversions. -/
example (fuel : Nat) (policy : UnsafePolicy) (force : Bool) (o : CppOptions) (a b : String) (l : List String) :
    convertAll fuel (fun _ => 0) exSig policy exGeoCfg force (.ofEvents exGeoReports) (some exGeoItems) o a b l ≠ .panic := by
  refine convert_ordered_safe (r := 0) rfl (by decide) rfl .root ?_ exGeo_well exGeo_ordered
  intro ns l h i hi
  rcases exGeo_module h with ⟨rfl, rfl⟩ | ⟨rfl, rfl⟩
  · rw [List.mem_singleton.1 hi]; trivial
  · simp only [exGeoSpace, List.mem_cons, List.not_mem_nil, or_false] at hi
    rcases hi with rfl | rfl | rfl | rfl
    · exact .inr (by decide)
    · exact .inr (by decide)
    · trivial
    · exact (fun h => by cases h)

end Verif
