import Verif.Gc
import Verif.ApiVecProps
import Verif.ConfigProps

/-!
# C02: garbage collection keeps exactly what the allowlist reaches
-/

set_option autoImplicit false

namespace Verif

/-- Specification: a name is reachable if it is the name of an item whose allowlist name the user
asked for, or if an item of a reachable name depends on it. -/
inductive Reachable (hash : Config → Nat) (c : Config) (apis : List FnApi) : QName → Prop
  | root (a : FnApi) (ha : a ∈ apis)
      (h : c.isOnAllowlist hash a.nameForAllowlist.toCppName = some true) :
      Reachable hash c apis a.name
  | step (a : FnApi) (ha : a ∈ apis) (hr : Reachable hash c apis a.name) (d : QName)
      (hd : d ∈ FnApi.deps a) : Reachable hash c apis d

/-! ## Helper lemmas -/

theorem filterOpt_some {α : Type} {p : α → Option Bool} {l r : List α}
    (h : filterOpt p l = some r) : ∀ a, a ∈ r ↔ a ∈ l ∧ p a = some true := by
  induction l generalizing r with
  | nil => cases h; simp
  | cons x l ih =>
    simp only [filterOpt] at h
    cases hp : p x with
    | none => simp [hp] at h
    | some b =>
      cases hr : filterOpt p l with
      | none => simp [hp, hr] at h
      | some r' =>
        simp [hp, hr] at h
        intro a
        have := ih hr a
        cases b with
        | true =>
          simp at h; subst h
          simp only [List.mem_cons, this]
          constructor
          · rintro (rfl | h)
            · exact ⟨Or.inl rfl, hp⟩
            · exact ⟨Or.inr h.1, h.2⟩
          · rintro ⟨rfl | h, h2⟩
            · exact Or.inl rfl
            · exact Or.inr ⟨h, h2⟩
        | false =>
          simp at h; subst h
          simp only [List.mem_cons, this]
          constructor
          · rintro ⟨h1, h2⟩; exact ⟨Or.inr h1, h2⟩
          · rintro ⟨rfl | h, h2⟩
            · rw [hp] at h2; cases h2
            · exact ⟨h, h2⟩

theorem filterOpt_none_iff {α : Type} (p : α → Option Bool) (l : List α) :
    filterOpt p l = none ↔ ∃ a ∈ l, p a = none := by
  induction l with
  | nil => simp [filterOpt]
  | cons x l ih =>
    simp only [filterOpt, List.mem_cons, exists_eq_or_imp]
    cases hp : p x with
    | none => simp
    | some b =>
      cases hr : filterOpt p l with
      | none => simp [ih.1 hr]
      | some r =>
        have : ¬ ∃ a ∈ l, p a = none := fun h => by rw [ih.2 h] at hr; cases hr
        simpa using this

/-- With unique names, the groups are singletons. -/
theorem gcGroup_get? (l : List FnApi) (h : (l.map (·.name)).Nodup) (n : QName) (v : FnApiVec) :
    (gcGroup l).get? n = some v ↔ ∃ a ∈ l, a.name = n ∧ v = { apis := [a], names := [a.name] } := by
  have key : ∀ (l : List FnApi) (m : AMap QName FnApiVec), (l.map (·.name)).Nodup →
      (∀ a ∈ l, m.get? a.name = none) →
      ∀ n v, (l.foldl (fun m a => m.insert a.name (((m.get? a.name).getD {}).push a)) m).get? n =
        some v ↔ m.get? n = some v ∨ ∃ a ∈ l, a.name = n ∧ v = { apis := [a], names := [a.name] } := by
    intro l
    induction l with
    | nil => intro m _ _ n v; simp
    | cons a l ih =>
      intro m hn hm n v
      simp only [List.map_cons, List.nodup_cons, List.mem_map, not_exists, not_and] at hn
      have e : ((m.get? a.name).getD {}).push a = { apis := [a], names := [a.name] } := by
        rw [hm a (by simp)]; rfl
      rw [List.foldl_cons, e, ih _ hn.2]
      · rw [AMap.get?_insert]
        by_cases hx : a.name = n
        · subst hx
          have h2 := hm a (by simp)
          simp only [if_true, h2, List.mem_cons, reduceCtorEq, false_or, exists_eq_or_imp, true_and,
            Option.some.injEq]
          constructor
          · rintro (h | h)
            · exact Or.inl h.symm
            · exact Or.inr h
          · rintro (h | h)
            · exact Or.inl h.symm
            · exact Or.inr h
        · simp [hx]
      · intro b hb
        rw [AMap.get?_insert, if_neg (fun e => hn.1 b hb e.symm)]
        exact hm b (by simp [hb])
  have := key l [] h (by simp) n v
  simpa [gcGroup] using this

/-- The loop invariant. -/
structure GcInv (A : List FnApi) (R : QName → Prop) (roots todos : List QName)
    (m : AMap QName FnApiVec) (done : List QName) (out : FnApiVec) : Prop where
  map : ∀ n v, m.get? n = some v ↔
    n ∉ done ∧ ∃ a ∈ A, a.name = n ∧ v = { apis := [a], names := [a.name] }
  outInv : out.Inv
  outMem : ∀ a, a ∈ out.apis ↔ a ∈ A ∧ a.name ∈ done
  reachD : ∀ n ∈ done, R n
  reachT : ∀ n ∈ todos, R n
  closed : ∀ a ∈ A, a.name ∈ done → ∀ d ∈ FnApi.deps a, d ∈ done ∨ d ∈ todos
  rooted : ∀ n ∈ roots, n ∈ done ∨ n ∈ todos

theorem gcLoop_spec (A : List FnApi) (hA : (A.map (·.name)).Nodup) (R : QName → Prop)
    (hR : ∀ a ∈ A, R a.name → ∀ d ∈ FnApi.deps a, R d) (roots : List QName)
    (todos : List QName) (m : AMap QName FnApiVec) (done : List QName) (out : FnApiVec)
    (h : GcInv A R roots todos m done out) :
    ∃ done', GcInv A R roots [] [] done' (gcLoop todos m done out) ∨
      ∃ m', GcInv A R roots [] m' done' (gcLoop todos m done out) := by
  fun_induction gcLoop todos m done out with
  | case1 m done out => exact ⟨done, Or.inr ⟨m, h⟩⟩
  | case2 m done out t rest hd ih =>
    refine ih ⟨h.map, h.outInv, h.outMem, h.reachD, fun n hn => h.reachT n (by simp [hn]), ?_, ?_⟩
    · intro a ha hn d hdd
      rcases h.closed a ha hn d hdd with h1 | h1
      · exact Or.inl h1
      · rcases List.mem_cons.1 h1 with rfl | h1
        · exact Or.inl hd
        · exact Or.inr h1
    · intro n hn
      rcases h.rooted n hn with h1 | h1
      · exact Or.inl h1
      · rcases List.mem_cons.1 h1 with rfl | h1
        · exact Or.inl hd
        · exact Or.inr h1
  | case3 m done out t rest hd these hm ih =>
    obtain ⟨_, a, ha, rfl, rfl⟩ := (h.map _ _).1 hm
    have hnot : ¬ ∃ b ∈ out.apis, b.name = a.name := by
      rintro ⟨b, hb, e⟩
      exact hd (e ▸ ((h.outMem b).1 hb).2)
    have hout : ((out.append { apis := [a], names := [a.name] }).1).apis = out.apis ++ [a] := by
      show (out.push a).apis = _
      rw [ApiVec.push_apis h.outInv, if_neg hnot]
    have huniq : ∀ b ∈ A, b.name = a.name → b = a := by
      intro b hb e
      have hi : ({ apis := A, names := A.map (·.name) } : FnApiVec).Inv := ⟨hA, rfl⟩
      have h1 := (ApiVec.get?_some_iff hi a.name b).2 ⟨hb, e⟩
      have h2 := (ApiVec.get?_some_iff hi a.name a).2 ⟨ha, rfl⟩
      rw [h1] at h2; cases h2; rfl
    refine ih ⟨?_, ?_, ?_, ?_, ?_, ?_, ?_⟩
    · intro n v
      rw [AMap.get?_erase]
      by_cases hx : a.name = n
      · subst hx; simp
      · rw [if_neg hx, h.map]
        have : ¬ n = a.name := fun e => hx e.symm
        simp [this]
    · exact ApiVec.extend_inv h.outInv _
    · intro b
      rw [hout]
      simp only [List.mem_append, h.outMem, List.mem_cons, List.not_mem_nil, or_false]
      constructor
      · rintro (⟨h1, h2⟩ | rfl)
        · exact ⟨h1, Or.inr h2⟩
        · exact ⟨ha, Or.inl rfl⟩
      · rintro ⟨h1, h2 | h2⟩
        · exact Or.inr (huniq b h1 h2)
        · exact Or.inl ⟨h1, h2⟩
    · intro n hn
      rcases List.mem_cons.1 hn with rfl | hn
      · exact h.reachT _ (by simp)
      · exact h.reachD n hn
    · intro n hn
      rcases List.mem_append.1 hn with hn | hn
      · exact h.reachT n (by simp [hn])
      · simp only [List.flatMap_cons, List.flatMap_nil, List.append_nil] at hn
        exact hR a ha (h.reachT _ (by simp)) n hn
    · intro b hb hn d hdd
      rcases List.mem_cons.1 hn with hn | hn
      · cases huniq b hb hn
        exact Or.inr (by simp [hdd])
      · rcases h.closed b hb hn d hdd with h1 | h1
        · exact Or.inl (by simp [h1])
        · rcases List.mem_cons.1 h1 with rfl | h1
          · exact Or.inl (by simp)
          · exact Or.inr (by simp [h1])
    · intro n hn
      rcases h.rooted n hn with h1 | h1
      · exact Or.inl (by simp [h1])
      · rcases List.mem_cons.1 h1 with rfl | h1
        · exact Or.inl (by simp)
        · exact Or.inr (by simp [h1])
  | case4 m done out t rest hd hm ih =>
    have hno : ¬ ∃ a ∈ A, a.name = t := by
      rintro ⟨a, ha, e⟩
      have := (h.map t _).2 ⟨hd, a, ha, e, rfl⟩
      rw [hm] at this; cases this
    refine ih ⟨?_, h.outInv, ?_, ?_, fun n hn => h.reachT n (by simp [hn]), ?_, ?_⟩
    · intro n v
      rw [h.map]
      constructor
      · rintro ⟨h1, a, ha, rfl, h2⟩
        refine ⟨?_, a, ha, rfl, h2⟩
        intro hx
        rcases List.mem_cons.1 hx with hx | hx
        · exact hno ⟨a, ha, hx⟩
        · exact h1 hx
      · rintro ⟨h1, h2⟩
        exact ⟨fun hx => h1 (by simp [hx]), h2⟩
    · intro a
      rw [h.outMem]
      constructor
      · rintro ⟨h1, h2⟩; exact ⟨h1, by simp [h2]⟩
      · rintro ⟨h1, h2⟩
        rcases List.mem_cons.1 h2 with h2 | h2
        · exact absurd ⟨a, h1, h2⟩ hno
        · exact ⟨h1, h2⟩
    · intro n hn
      rcases List.mem_cons.1 hn with rfl | hn
      · exact h.reachT _ (by simp)
      · exact h.reachD n hn
    · intro b hb hn d hdd
      rcases List.mem_cons.1 hn with hn | hn
      · exact absurd ⟨b, hb, hn⟩ hno
      · rcases h.closed b hb hn d hdd with h1 | h1
        · exact Or.inl (by simp [h1])
        · rcases List.mem_cons.1 h1 with rfl | h1
          · exact Or.inl (by simp)
          · exact Or.inr h1
    · intro n hn
      rcases h.rooted n hn with h1 | h1
      · exact Or.inl (by simp [h1])
      · rcases List.mem_cons.1 h1 with rfl | h1
        · exact Or.inl (by simp)
        · exact Or.inr h1

/-! ## C02 -/

/-- **C02**: the garbage collector (whose termination is part of its definition) keeps exactly the
items of reachable names, each once. -/
theorem gc_exact (hash : Config → Nat) (c : Config) (apis out : FnApiVec) (hi : apis.Inv)
    (h : gc hash c apis = some out) :
    out.Inv ∧ ∀ a, a ∈ out.apis ↔ a ∈ apis.apis ∧ Reachable hash c apis.apis a.name := by
  unfold gc at h
  cases hr : filterOpt (fun a : FnApi => c.isOnAllowlist hash a.nameForAllowlist.toCppName) apis.apis with
  | none => simp [hr] at h
  | some roots =>
    simp [hr] at h
    have hroots := filterOpt_some hr
    have h0 : GcInv apis.apis (Reachable hash c apis.apis) (roots.map (·.name)) (roots.map (·.name))
        (gcGroup apis.apis) [] {} := by
      refine ⟨?_, ApiVec.inv_empty, by simp, by simp, ?_, by simp, fun n hn => Or.inr hn⟩
      · intro n v
        rw [gcGroup_get? _ hi.1]; simp
      · intro n hn
        obtain ⟨a, ha, rfl⟩ := List.mem_map.1 hn
        exact .root a ((hroots a).1 ha).1 ((hroots a).1 ha).2
    obtain ⟨done, hx⟩ := gcLoop_spec apis.apis hi.1 _
      (fun a ha hra d hd => .step a ha hra d hd) _ _ _ _ _ h0
    obtain ⟨m', hx⟩ : ∃ m', GcInv apis.apis (Reachable hash c apis.apis) (roots.map (·.name)) [] m'
        done out := by
      rw [← h]
      rcases hx with hx | ⟨m', hx⟩
      · exact ⟨_, hx⟩
      · exact ⟨m', hx⟩
    refine ⟨hx.outInv, fun a => ?_⟩
    rw [hx.outMem]
    refine and_congr_right fun ha => ⟨fun hd => hx.reachD _ hd, fun hreach => ?_⟩
    have : ∀ n, Reachable hash c apis.apis n → n ∈ done := by
      intro n hn
      induction hn with
      | root a ha h =>
        rcases hx.rooted a.name (List.mem_map.2 ⟨a, (hroots a).2 ⟨ha, h⟩, rfl⟩) with h | h
        · exact h
        · cases h
      | step a ha _ d hd ih =>
        rcases hx.closed a ha ih d hd with h | h
        · exact h
        · cases h
    exact this _ hreach

/-- **C02 (the only failure)**: garbage collection fails (panics) exactly when the allowlist is still
undecided and some item is not mentioned by another directive. -/
theorem gc_panics_iff (hash : Config → Nat) (c : Config) (apis : FnApiVec) :
    gc hash c apis = none ↔ ∃ a ∈ apis.apis,
      c.isOnAllowlist hash (FnApi.nameForAllowlist a).toCppName = none := by
  unfold gc
  have := filterOpt_none_iff (fun a : FnApi => c.isOnAllowlist hash a.nameForAllowlist.toCppName)
    apis.apis
  cases hr : filterOpt (fun a : FnApi => c.isOnAllowlist hash a.nameForAllowlist.toCppName) apis.apis with
  | none => simp [this.1 hr]
  | some roots =>
    simp only [Option.bind_eq_bind, Option.bind_some, Option.pure_def, reduceCtorEq, false_iff]
    intro h; rw [this.2 h] at hr; cases hr

/-- After `confirm_complete` it never fails. -/
theorem gc_total (hash : Config → Nat) (c : Config) (apis : FnApiVec) :
    gc hash c.confirmComplete apis ≠ none := by
  rw [ne_eq, gc_panics_iff]
  rintro ⟨a, _, h⟩
  exact on_allowlist_total hash c _ h

/-- **C02 (idempotence)**: collecting again changes nothing (up to order). -/
theorem gc_idempotent (hash : Config → Nat) (c : Config) (apis out out' : FnApiVec) (hi : apis.Inv)
    (h : gc hash c apis = some out) (h' : gc hash c out = some out') (a : FnApi) :
    a ∈ out'.apis ↔ a ∈ out.apis := by
  obtain ⟨h1, h2⟩ := gc_exact hash c apis out hi h
  obtain ⟨_, h4⟩ := gc_exact hash c out out' h1 h'
  rw [h4]
  refine ⟨fun h => h.1, fun ha => ⟨ha, ?_⟩⟩
  have key : ∀ n, Reachable hash c apis.apis n → Reachable hash c out.apis n := by
    intro n hn
    induction hn with
    | root b hb hr => exact .root b ((h2 b).2 ⟨hb, .root b hb hr⟩) hr
    | step b hb hr d hd ih => exact .step b ((h2 b).2 ⟨hb, hr⟩) ih d hd
  exact key _ ((h2 a).1 ha).2

/-- Adding entries to the allowlist never loses an item. -/
theorem gc_monotone (hash : Config → Nat) (c c' : Config) (apis out out' : FnApiVec) (hi : apis.Inv)
    (hc : ∀ n, c.isOnAllowlist hash n = some true → c'.isOnAllowlist hash n = some true)
    (h : gc hash c apis = some out) (h' : gc hash c' apis = some out') (a : FnApi)
    (ha : a ∈ out.apis) : a ∈ out'.apis := by
  rw [(gc_exact hash c' apis out' hi h').2]
  obtain ⟨h1, h2⟩ := ((gc_exact hash c apis out hi h).2 a).1 ha
  refine ⟨h1, ?_⟩
  have key : ∀ n, Reachable hash c apis.apis n → Reachable hash c' apis.apis n := by
    intro n hn
    induction hn with
    | root b hb hr => exact .root b hb (hc _ hr)
    | step b hb hr d hd ih => exact .step b hb ih d hd
  exact key _ h2

/-- A cyclic graph with an unreachable item: `A ↔ B`, `C → A` unreachable. -/
def gcExample : FnApiVec :=
  { apis := [.rustFn ⟨⟨[], "A"⟩, none⟩ [⟨[], "B"⟩], .rustFn ⟨⟨[], "B"⟩, none⟩ [⟨[], "A"⟩],
     .rustFn ⟨⟨[], "C"⟩, none⟩ [⟨[], "A"⟩]],
    names := [⟨[], "A"⟩, ⟨[], "B"⟩, ⟨[], "C"⟩] }

/-- The configuration `generate!("A")`. -/
def gcExampleConfig : Config := { allowlist := .specific [.item "A"], excludeUtilities := true }

/-- The hypotheses are met and the result is as expected: `A` and `B` are kept, `C` is not. -/
example : gcExample.Inv ∧ ∃ out, gc (fun _ => 0) gcExampleConfig gcExample = some out ∧
    out.apis.map (·.name.name) = ["A", "B"] := by
  refine ⟨⟨by decide, rfl⟩, ?_⟩
  have h : ∀ n ∈ ["A", "B", "C"], QName.toCppName ⟨[], n⟩ = n := by
    unfold QName.toCppName specialCppName
    simp only [knownGet_eq_lit]
    decide +kernel
  have hA := h "A" (by simp)
  have hB := h "B" (by simp)
  have hC := h "C" (by simp)
  have hr : filterOpt (fun a : FnApi => gcExampleConfig.isOnAllowlist (fun _ => 0)
      a.nameForAllowlist.toCppName) gcExample.apis = some [.rustFn ⟨⟨[], "A"⟩, none⟩ [⟨[], "B"⟩]] := by
    simp only [gcExample, filterOpt, FnApi.nameForAllowlist, Api.name, Api.nameInfo, hA, hB, hC]
    decide
  refine ⟨_, by unfold gc; rw [hr]; rfl, ?_⟩
  simp [gcLoop, gcExample, gcGroup, AMap.insert, AMap.get?, AMap.erase, ApiVec.push, ApiVec.append,
    ApiVec.extend, ApiVec.alreadyContains, ApiVec.pushNew, setInsert, Api.name, Api.nameInfo, FnApi.deps]

end Verif
