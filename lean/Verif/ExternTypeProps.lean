import Verif.ConvertErrProps

/-!
# Rust types used in C++ are declared

A Rust type may be named by several directives and found in several places of the Rust code. It is pushed once
(`rust_types` is a set, parser/src/config.rs), for a name pushed twice would be lost.
-/

set_option autoImplicit false

namespace Verif

theorem foldl_setInsert_nodup {α : Type} [DecidableEq α] (l : List α) : ∀ (acc : List α), acc.Nodup →
    (l.foldl setInsert acc).Nodup := by
  induction l with
  | nil => exact fun _ h => h
  | cons a l ih =>
    intro acc h
    refine ih _ ?_
    unfold setInsert
    split
    · exact h
    · rename_i hn
      rw [List.nodup_append]
      exact ⟨h, by simp, fun x hx y hy e => hn (List.mem_singleton.1 hy ▸ e ▸ hx)⟩

theorem singleton_of {α : Type} {m : List α} {a : α} (h : m.length = 1) (ha : a ∈ m) : m = [a] := by
  match m, h, ha with
  | [x], _, hm => rw [List.mem_singleton.1 hm]

theorem configApis_types {hash : Config → Nat} {sigOf : RustSig → RustFnSig} {cfg : Config} {l : List NullApi}
    (h : configApis hash sigOf cfg = some (.ok l)) :
    ∃ paths types, paths.Nodup ∧ (∀ r, r ∈ paths ↔ r ∈ cfg.rustTypes) ∧
      All2 (fun r a => ∃ id, r.getLast? = some id ∧ a = .rustType (ApiName.ofQName ⟨[], id⟩) (joinCC r)) paths types ∧
      ∃ l1 l2, l = l1 ++ types ++ l2 ∧ (∀ a ∈ l1, ∀ n s, a ≠ .rustType n s) ∧ ∀ a ∈ l2, ∀ n s, a ≠ .rustType n s := by
  unfold configApis at h
  split at h
  · cases h
  · cases h
  · rename_i funs hf
    obtain ⟨types, ht, h⟩ := Option.map_eq_some_iff.1 h
    cases h
    refine ⟨_, types, foldl_setInsert_nodup _ _ List.nodup_nil, fun r => ?_, (mapM_all2 ht).mono ?_, _, _, rfl, ?_, ?_⟩
    · rw [mem_foldl_setInsert]; simp
    · intro r a _ e
      obtain ⟨id, hid, rfl⟩ := Option.map_eq_some_iff.1 e
      exact ⟨id, hid, rfl⟩
    · intro a ha n s e
      subst e
      simp only [List.mem_append] at ha
      rcases ha with (ha | ha) | ha
      · split at ha
        · cases ha
        · cases List.mem_singleton.1 ha
      · obtain ⟨_, -, e⟩ := List.mem_map.1 ha
        cases e
      · obtain ⟨_, -, _, -, e⟩ := ((rustFunApis_iff ..).1 hf).right ha
        cases e
    · intro a ha n s e
      subst e
      obtain ⟨_, -, e⟩ := List.mem_map.1 ha
      cases e

/-- **C01, C68**: however often a Rust type is named or found, one item is made for it. -/
theorem rust_type_once {hash : Config → Nat} {sigOf : RustSig → RustFnSig} {cfg : Config} {l : List NullApi}
    (h : configApis hash sigOf cfg = some (.ok l)) {r : RustPath} {id : Ident} (hr : r ∈ cfg.rustTypes)
    (hid : r.getLast? = some id) (hone : ∀ r' ∈ cfg.rustTypes, r'.getLast? = some id → r' = r)
    (hother : ∀ d ∈ l, d.name = ⟨[], id⟩ → ∃ n s, d = .rustType n s) :
    (l.filter fun b => b.name = ⟨[], id⟩) = [.rustType (ApiName.ofQName ⟨[], id⟩) (joinCC r)] := by
  obtain ⟨paths, types, hnd, hmem, hall, l1, l2, rfl, h1, h2⟩ := configApis_types h
  have hnil : ∀ m : List NullApi, (∀ a ∈ m, a ∈ l1 ++ types ++ l2) → (∀ a ∈ m, ∀ n s, a ≠ .rustType n s) →
      (m.filter fun b => b.name = ⟨[], id⟩) = [] := by
    intro m hm hn
    rw [List.filter_eq_nil_iff]
    intro a ha e
    obtain ⟨n, s, e⟩ := hother a (hm a ha) (by simpa using e)
    exact hn a ha n s e
  rw [List.filter_append, List.filter_append, hnil l1 (fun a ha => by simp [ha]) h1,
    hnil l2 (fun a ha => by simp [ha]) h2, List.nil_append, List.append_nil]
  have hlen := filter_all2 (P := fun r' : RustPath => decide (r' = r))
    (Q := fun b : NullApi => decide (b.name = ⟨[], id⟩)) hall (by
      rintro r' hr' b ⟨id', hid', rfl⟩
      show decide ((⟨[], id'⟩ : QName) = ⟨[], id⟩) = decide (r' = r)
      by_cases e : r' = r
      · subst e
        have : id' = id := Option.some.inj (hid'.symm.trans hid)
        simp [this]
      · have : id' ≠ id := fun e' => e (hone r' ((hmem _).1 hr') (e' ▸ hid'))
        simp [e, this])
  have hcount : (paths.filter fun r' => decide (r' = r)).length = 1 := by
    have := List.count_eq_one_of_mem hnd ((hmem r).2 hr)
    rw [List.count_eq_length_filter] at this
    rw [← this]
    congr 2
    funext x
    rw [Bool.eq_iff_iff]
    simp
  rw [hcount] at hlen
  obtain ⟨a, ha, id', hid', e⟩ := hall.left ((hmem r).2 hr)
  rw [hid] at hid'
  cases hid'
  have hn : a.name = ⟨[], id⟩ := by rw [e]; rfl
  have ha' : a ∈ types.filter fun b => decide (b.name = ⟨[], id⟩) := List.mem_filter.2 ⟨ha, decide_eq_true hn⟩
  rw [← e]
  exact singleton_of hlen ha'

/-- A type found twice, beside another. -/
example (hash : Config → Nat) (sigOf : RustSig → RustFnSig) :
    (configApis hash sigOf { excludeUtilities := true, rustTypes := [["crate", "A"], ["crate", "B"], ["crate", "A"]] }) =
      some (.ok [.rustType ⟨⟨[], "A"⟩, none⟩ "crate::A", .rustType ⟨⟨[], "B"⟩, none⟩ "crate::B"]) := by
  rfl

/-- **C68 is false of the code** where Rust types of two modules have one name: neither is declared. -/
theorem same_rust_type_false (hash : Config → Nat) (sigOf : RustSig → RustFnSig) :
    ∃ l, configApis hash sigOf { excludeUtilities := true, rustTypes := [["a", "T"], ["b", "T"]] } = some (.ok l) ∧
      ∀ x ∈ (ApiVec.fromIter l).apis, x.isIgnored = true := by
  refine ⟨[.rustType ⟨⟨[], "T"⟩, none⟩ "a::T", .rustType ⟨⟨[], "T"⟩, none⟩ "b::T"], rfl, ?_⟩
  decide

/-- The parser makes no items for Rust types of what bindgen wrote. -/
theorem item_not_rustType {cfg : Config} {cb : Callbacks} {ns : List String} {l : List BindgenItem} {i : BindgenItem}
    {o : ItemOut} {a : NullApi} (h : ItemFate cfg cb ns i o) (hi : ∀ id items, i ≠ .mod id items) (ha : FromItem ns l o a)
    (n : ApiName) (q : String) : a ≠ .rustType n q := by
  rintro rfl
  unfold FromItem at ha
  cases h with
  | mod => exact absurd rfl (hi _ _)
  | foreign hf =>
    rcases ha with ha | ha | ha | ⟨f, hfm, e⟩
    · cases ha
    · cases ha
    · obtain ⟨id, hid, e⟩ := (foreign_found hf).2.2.2 _ ha
      cases e
    · cases e
  | _ =>
    rcases ha with ha | ha | ha | ⟨f, hfm, e⟩
    · first | (cases ha; done) | (cases List.mem_singleton.1 ha; done)
    · first | (cases ha; done) | (cases List.mem_singleton.1 ha; done)
    · first | (cases ha; done) | (cases List.mem_singleton.1 ha; done)
    · cases e

section
variable {fuel : Nat} {hash : Config → Nat} {sigOf : RustSig → RustFnSig} {policy : UnsafePolicy} {cfg : Config}
  {force : Bool} {cb : Callbacks} {items : List BindgenItem} {out : FnApiVec}
  (p : ConvertStages fuel hash sigOf policy cfg force cb items out)
include p

/-- **C68**: a Rust type named by directives or found in Rust code, whatever number of times, is delivered, if nothing
else in the configuration, in C++, or made on the way has its name. -/
theorem ConvertStages.rustType_delivered {r : RustPath} {id : Ident} (hr : r ∈ cfg.rustTypes)
    (hid : r.getLast? = some id) (hone : ∀ r' ∈ cfg.rustTypes, r'.getLast? = some id → r' = r)
    {found : List NullApi} (hfound : FoundBy hash sigOf cfg cb items found)
    (hother : ∀ d ∈ found, d.name = ⟨[], id⟩ → ∃ n s, d = .rustType n s)
    (hext : ∀ x, ¬ ExternIs cfg ⟨[], id⟩ x) (hk : isKnownType ⟨[], id⟩ = false)
    (h1 : ∀ y ∈ p.allocs.apis, y.name = ⟨[], id⟩ → y.invented = false)
    (h2 : ∀ y ∈ p.fns.apis, y.name = ⟨[], id⟩ → y.invented = false) :
    ∃ b ∈ out.apis, Follows (.rustType (ApiName.ofQName ⟨[], id⟩) (joinCC r) : NullApi) b := by
  have hin : Api.rustType (ApiName.ofQName ⟨[], id⟩) (joinCC r) ∈ p.found.apis := by
    refine (parsed_real_iff _ _ _ _ _ _ _ p.hparse hfound _ rfl).2 (.inr ⟨hext, [], ?_, by simp⟩)
    obtain ⟨l, root, outs, hl, hroot, hout, rfl⟩ := hfound
    have := rust_type_once hl hr hid hone fun d hd hn => hother d (List.mem_append_left _ hd) hn
    rw [List.filter_append]
    have hz : ((moduleApis [] outs).filter fun b : NullApi =>
        decide (b.name = (Api.rustType (ApiName.ofQName ⟨[], id⟩) (joinCC r) : NullApi).name)) = [] := by
      rw [List.filter_eq_nil_iff]
      intro a ha e
      obtain ⟨n, s, e⟩ := hother a (List.mem_append_right _ ha) (of_decide_eq_true e)
      obtain ⟨o, hom, hfr⟩ := (mem_moduleApis hout a).1 ha
      obtain ⟨ns', l', j, o', -, -, hne, hfate, hfr'⟩ :=
        module_sources [] root root outs a (fun _ h => h) hout ⟨o, hom, hfr⟩
      exact item_not_rustType hfate hne hfr' n s e
    rw [hz, List.append_nil]
    exact this
  have hon : cfg.isOnAllowlist hash (QName.toCppName ⟨[], id⟩) = some true := by
    rw [toCppName_plain hk]
    exact (on_allowlist_iff ..).2 (.inl (.rustType r hr hid))
  exact p.item_delivered hin rfl h1 h2 hon hon
end

end Verif
