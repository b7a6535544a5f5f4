import Verif.RemoveIgnored
import Verif.ApiVecProps
import Verif.Util

/-!
# C03 and C04: dependents of ignored items, and what happens to them
-/

set_option autoImplicit false

namespace Verif

/-! ## Specification -/

/-- The type names a set of items makes available. -/
def validNames (apis : List FnApi) : List QName :=
  (apis.filter (!·.isIgnored)).flatMap Api.validTypes

/-- The name belongs to an item which was ignored from the outset. -/
def IgnoredName (apis : List FnApi) (n : QName) : Prop := ∃ b ∈ apis, b.isIgnored = true ∧ b.name = n

/-- Every dependency of the item is something autocxx has heard of: an available type, a built-in
type, or an ignored item. -/
def NoUnknown (apis : List FnApi) (a : FnApi) : Prop :=
  ∀ d ∈ FnApi.deps a, d ∈ validNames apis ∨ isKnownType d = true ∨ IgnoredName apis d

/-- A name is tainted if it is the name of an ignored item, or of an item which depends on a tainted
name. -/
inductive Tainted (apis : List FnApi) : QName → Prop
  | ignored (a : FnApi) (ha : a ∈ apis) (h : a.isIgnored = true) : Tainted apis a.name
  | dep (a : FnApi) (ha : a ∈ apis) (d : QName) (hd : d ∈ FnApi.deps a) (h : Tainted apis d) :
      Tainted apis a.name

/-- Like `Tainted`, but taint spreads only through items all of whose dependencies are known. -/
inductive TaintedKnown (apis : List FnApi) : QName → Prop
  | ignored (a : FnApi) (ha : a ∈ apis) (h : a.isIgnored = true) : TaintedKnown apis a.name
  | dep (a : FnApi) (ha : a ∈ apis) (hk : NoUnknown apis a) (d : QName) (hd : d ∈ FnApi.deps a)
      (h : TaintedKnown apis d) : TaintedKnown apis a.name

/-- What the marker for an item refers the user to: for a method its type and the method, for a method
of a trait nothing, for everything else the item itself. -/
inductive MarkerContext : FnApi → Option ErrorContext → Prop
  | traitMethod {n : ApiName} {f : FuncToConvert} {an : FnAnalysis} {k : TraitMethodKind} {ty : QName}
      {r : TraitMethodDetails} (h : an.kind = .traitMethod k ty r) :
      MarkerContext (.function n f an) none
  | method {n : ApiName} {f : FuncToConvert} {an : FnAnalysis} {k : MethodKind} {ty : QName}
      (h : an.kind = .method k ty) :
      MarkerContext (.function n f an) (some (ErrorContext.newForMethod ty.name n.name.name))
  | freeFunction {n : ApiName} {f : FuncToConvert} {an : FnAnalysis} (h : an.kind = .function) :
      MarkerContext (.function n f an) (some (ErrorContext.newForItem n.name.name))
  | item {a : FnApi} (h : ∀ n f an, a ≠ .function n f an) :
      MarkerContext a (some (ErrorContext.newForItem a.name.name))

/-- The fate of an item: kept as it is, or replaced by a marker with a true reason. -/
inductive Fate (apis : List FnApi) (a : FnApi) : FnApi → Prop
  | kept : Fate apis a a
  | ignoredDep (qs : List QName) (hq : qs ≠ []) (h : ∀ q ∈ qs, q ∈ FnApi.deps a ∧ Tainted apis q)
      (ctx : Option ErrorContext) (hc : MarkerContext a ctx) :
      Fate apis a (.ignoredItem a.nameInfo (.ignoredDependent qs) ctx)
  | unknownDep (d : QName) (hd : d ∈ FnApi.deps a) (h1 : d ∉ validNames apis)
      (h2 : isKnownType d = false) (h3 : ∀ e ∈ FnApi.deps a, ¬ IgnoredName apis e)
      (ctx : Option ErrorContext) (hc : MarkerContext a ctx) :
      Fate apis a (.ignoredItem a.nameInfo (.unknownDependentType d) ctx)

/-! ## Helper lemmas -/

theorem createIgnoreItem_nameInfo (a : FnApi) (e : Err) :
    (createIgnoreItem a e).nameInfo = a.nameInfo := rfl

theorem createIgnoreItem_eq (a : FnApi) (e : Err) :
    ∃ ctx, createIgnoreItem a e = .ignoredItem a.nameInfo e ctx ∧ MarkerContext a ctx := by
  refine ⟨_, rfl, ?_⟩
  split
  · rename_i n f an
    split
    · rename_i h; exact .traitMethod h
    · rename_i h; exact .method h
    · rename_i h; exact .freeFunction h
  · rename_i h; exact .item fun n f an => h n f an

theorem mem_foldl_setInsert {α : Type} [DecidableEq α] (l acc : List α) (x : α) :
    x ∈ l.foldl setInsert acc ↔ x ∈ acc ∨ x ∈ l := by
  induction l generalizing acc with
  | nil => simp
  | cons a r ih =>
    rw [List.foldl_cons, ih]
    unfold setInsert
    split
    · rename_i h
      simp only [List.mem_cons]
      constructor
      · rintro (h | h)
        · exact Or.inl h
        · exact Or.inr (Or.inr h)
      · rintro (h | rfl | h)
        · exact Or.inl h
        · exact Or.inl ‹_›
        · exact Or.inr h
    · simp [or_assoc]

theorem mem_setInsert {α : Type} [DecidableEq α] (l : List α) (a x : α) :
    x ∈ setInsert l a ↔ x ∈ l ∨ x = a := by
  simpa using mem_foldl_setInsert [a] l x

/-- What one pass does to one item, relative to the final ignored set `fin` of the pass. -/
inductive PassRel (I0 : QName → Prop) (valid : List QName) (fin : List QName) (B : QName → Prop) (a : FnApi) : FnApi → Prop
  | kept (h : ∀ d ∈ FnApi.deps a, depKnown valid d = true) : PassRel I0 valid fin B a a
  | ignoredDep (qs : List QName) (hq : qs ≠ []) (h : ∀ q ∈ qs, q ∈ FnApi.deps a ∧ B q)
      (hn : a.name ∈ fin) : PassRel I0 valid fin B a (createIgnoreItem a (.ignoredDependent qs))
  | unknownDep (d : QName) (hd : d ∈ FnApi.deps a) (h : depKnown valid d = false)
      (h0 : ∀ e ∈ FnApi.deps a, ¬ I0 e) :
      PassRel I0 valid fin B a (createIgnoreItem a (.unknownDependentType d))

theorem riPass_spec (I0 : QName → Prop) (valid : List QName) (B : QName → Prop) (l : List FnApi)
    (ign : List QName) (h0 : ∀ n, I0 n → n ∈ ign)
    (hB : ∀ a ∈ l, ∀ d ∈ FnApi.deps a, B d → B a.name) (hi : ∀ n ∈ ign, B n) :
    (∀ n ∈ ign, n ∈ (riPass valid ign l).1) ∧ (∀ n ∈ (riPass valid ign l).1, B n) ∧
    All2 (PassRel I0 valid (riPass valid ign l).1 B) l (riPass valid ign l).2.2 ∧
    ((riPass valid ign l).2.1 = false → (riPass valid ign l).1 = ign ∧
      ∀ a ∈ l, ∀ d ∈ FnApi.deps a, d ∉ ign) := by
  induction l generalizing ign with
  | nil => exact ⟨fun n h => h, hi, .nil, fun _ => ⟨rfl, by simp⟩⟩
  | cons a r ih =>
    unfold riPass
    simp only
    split
    · rename_i hb
      obtain ⟨x, hx⟩ := List.exists_mem_of_ne_nil _ hb
      simp only [List.mem_filter, decide_eq_true_eq] at hx
      have hBa : B a.name := hB a (by simp) x hx.1 (hi x hx.2)
      obtain ⟨h1, h2, h3, _⟩ := ih (setInsert ign a.name)
        (fun n hn => (mem_setInsert _ _ _).2 (Or.inl (h0 n hn))) (fun b hb' => hB b (by simp [hb'])) (by
        intro n hn
        rcases (mem_setInsert ign a.name n).1 hn with hn | rfl
        · exact hi n hn
        · exact hBa)
      refine ⟨fun n hn => h1 n ((mem_setInsert _ _ _).2 (Or.inl hn)), h2, .cons ?_ h3, by simp⟩
      refine .ignoredDep _ ?_ ?_ (h1 _ ((mem_setInsert _ _ _).2 (Or.inr rfl)))
      · intro e
        have := (mem_foldl_setInsert ((FnApi.deps a).filter (· ∈ ign)) [] x).2 (Or.inr (by simp [hx]))
        rw [e] at this; cases this
      · intro q hq
        rcases (mem_foldl_setInsert _ _ _).1 hq with hq | hq
        · cases hq
        · simp only [List.mem_filter, decide_eq_true_eq] at hq
          exact ⟨hq.1, hi q hq.2⟩
    · rename_i hb
      have hnone : ∀ d ∈ FnApi.deps a, d ∉ ign := by
        intro d hd hdi
        apply hb
        intro e
        have : d ∈ (FnApi.deps a).filter (· ∈ ign) := by simp [hd, hdi]
        rw [e] at this; cases this
      obtain ⟨h1, h2, h3, h4⟩ := ih ign h0 (fun b hb' => hB b (by simp [hb'])) hi
      split
      · rename_i d hd
        refine ⟨h1, h2, .cons (.unknownDep d (List.mem_of_find?_eq_some hd) ?_ ?_) h3, ?_⟩
        · simpa using List.find?_some hd
        · exact fun e he hI => hnone e he (h0 e hI)
        · intro h
          refine ⟨(h4 h).1, fun b hb' => ?_⟩
          rcases List.mem_cons.1 hb' with rfl | hb'
          · exact hnone
          · exact (h4 h).2 b hb'
      · rename_i hd
        refine ⟨h1, h2, .cons (.kept ?_) h3, ?_⟩
        · simpa using hd
        · intro h
          refine ⟨(h4 h).1, fun b hb' => ?_⟩
          rcases List.mem_cons.1 hb' with rfl | hb'
          · exact hnone
          · exact (h4 h).2 b hb'

theorem fromIter_same_names (l m : List FnApi) (h : l.map (·.name) = m.map (·.name))
    (hn : (l.map (·.name)).Nodup) : (ApiVec.fromIter m).apis = m := by
  unfold ApiVec.fromIter
  have := extend_fresh_apis ({} : FnApiVec) ApiVec.inv_empty m (by rw [← h]; exact hn)
  simpa using this

/-- What the passes so far did to one item. -/
inductive LoopRel (I0 : QName → Prop) (valid ign : List QName) (B : QName → Prop) (a : FnApi) : FnApi → Prop
  | kept : LoopRel I0 valid ign B a a
  | ignoredDep (qs : List QName) (hq : qs ≠ []) (h : ∀ q ∈ qs, q ∈ FnApi.deps a ∧ B q)
      (hn : a.name ∈ ign) : LoopRel I0 valid ign B a (createIgnoreItem a (.ignoredDependent qs))
  | unknownDep (d : QName) (hd : d ∈ FnApi.deps a) (h : depKnown valid d = false)
      (h0 : ∀ e ∈ FnApi.deps a, ¬ I0 e) :
      LoopRel I0 valid ign B a (createIgnoreItem a (.unknownDependentType d))

/-- What all passes did to one item. -/
inductive FinalRel (I0 : QName → Prop) (valid ign : List QName) (B : QName → Prop) (a : FnApi) : FnApi → Prop
  | kept (h : ∀ d ∈ FnApi.deps a, depKnown valid d = true ∧ d ∉ ign) : FinalRel I0 valid ign B a a
  | ignoredDep (qs : List QName) (hq : qs ≠ []) (h : ∀ q ∈ qs, q ∈ FnApi.deps a ∧ B q)
      (hn : a.name ∈ ign) : FinalRel I0 valid ign B a (createIgnoreItem a (.ignoredDependent qs))
  | unknownDep (d : QName) (hd : d ∈ FnApi.deps a) (h : depKnown valid d = false)
      (h0 : ∀ e ∈ FnApi.deps a, ¬ I0 e) :
      FinalRel I0 valid ign B a (createIgnoreItem a (.unknownDependentType d))

theorem LoopRel.name {I0 : QName → Prop} {valid ign : List QName} {B : QName → Prop}
    {a b : FnApi}
    (h : LoopRel I0 valid ign B a b) : a.name = b.name := by
  cases h <;> rfl

theorem FinalRel.name {I0 : QName → Prop} {valid ign : List QName} {B : QName → Prop}
    {a b : FnApi}
    (h : FinalRel I0 valid ign B a b) : a.name = b.name := by
  cases h <;> rfl

theorem PassRel.name {I0 : QName → Prop} {valid ign : List QName} {B : QName → Prop}
    {a b : FnApi}
    (h : PassRel I0 valid ign B a b) : a.name = b.name := by
  cases h <;> rfl

theorem riLoop_spec (I0 : QName → Prop) (valid : List QName) (B : QName → Prop) (A : List FnApi)
    (hA : (A.map (·.name)).Nodup) (hB : ∀ a ∈ A, ∀ d ∈ FnApi.deps a, B d → B a.name)
    (ign : List QName) (v : FnApiVec) (h0 : ∀ n, I0 n → n ∈ ign) (hi : ∀ n ∈ ign, B n)
    (hv : All2 (LoopRel I0 valid ign B) A v.apis) :
    ∃ ign', (∀ n ∈ ign, n ∈ ign') ∧ (∀ n ∈ ign', B n) ∧
      All2 (FinalRel I0 valid ign' B) A (riLoop valid ign v).apis := by
  fun_induction riLoop valid ign v with
  | case1 ign v hagain ih | case2 ign v hagain =>
    have hnames := hv.map_eq (f := (·.name)) (g := (·.name)) (fun _ _ h => h.name)
    have hBv : ∀ b ∈ v.apis, ∀ d ∈ FnApi.deps b, B d → B b.name := by
      intro b hb d hd
      obtain ⟨a, ha, hr⟩ := hv.right hb
      cases hr with
      | kept => exact hB b ha d hd
      | ignoredDep => cases hd
      | unknownDep => cases hd
    obtain ⟨h1, h2, h3, h4⟩ := riPass_spec I0 valid B v.apis ign h0 hBv hi
    have hn2 := h3.map_eq (f := (·.name)) (g := (·.name)) (fun _ _ h => h.name)
    have hfrom := fromIter_same_names v.apis _ hn2 (by rw [← hnames]; exact hA)
    first
    | -- another pass
      obtain ⟨ign', g1, g2, g3⟩ := ih (fun n hn => h1 n (h0 n hn)) h2 (by
        rw [hfrom]
        refine (hv.trans h3).mono ?_
        rintro a c _ ⟨b, hab, hbc⟩
        cases hab with
        | kept => cases hbc with
          | kept h => exact .kept
          | ignoredDep qs hq h hn => exact .ignoredDep qs hq h hn
          | unknownDep d hd h hI => exact .unknownDep d hd h hI
        | ignoredDep qs hq h hn => cases hbc with
          | kept _ => exact .ignoredDep qs hq h (h1 _ hn)
          | ignoredDep qs' hq' h' hn' =>
            obtain ⟨x, hx⟩ := List.exists_mem_of_ne_nil _ hq'
            cases (h' x hx).1
          | unknownDep d hd h hI => cases hd
        | unknownDep d hd h hI => cases hbc with
          | kept _ => exact .unknownDep d hd h hI
          | ignoredDep qs' hq' h' hn' =>
            obtain ⟨x, hx⟩ := List.exists_mem_of_ne_nil _ hq'
            cases (h' x hx).1
          | unknownDep d hd h hI => cases hd)
      exact ⟨ign', fun n hn => g1 n (h1 n hn), g2, g3⟩
    | -- last pass
      obtain ⟨h5, h6⟩ := h4 (by simpa using hagain)
      refine ⟨ign, fun n h => h, hi, ?_⟩
      rw [hfrom]
      have h3' : All2 (fun b c => PassRel I0 valid ign B b c ∧ b ∈ v.apis) v.apis
          (riPass valid ign v.apis).2.2 := h3.mono fun b c hb hr => ⟨h5 ▸ hr, hb⟩
      refine (hv.trans h3').mono ?_
      rintro a c _ ⟨b, hab, hbc, hbv⟩
      cases hab with
      | kept => cases hbc with
        | kept h => exact .kept fun d hd => ⟨h d hd, h6 a hbv d hd⟩
        | ignoredDep qs hq h hn => exact .ignoredDep qs hq h hn
        | unknownDep d hd h hI => exact .unknownDep d hd h hI
      | ignoredDep qs hq h hn => cases hbc with
        | kept _ => exact .ignoredDep qs hq h hn
        | ignoredDep qs' hq' h' hn' =>
          obtain ⟨x, hx⟩ := List.exists_mem_of_ne_nil _ hq'
          cases (h' x hx).1
        | unknownDep d hd h hI => cases hd
      | unknownDep d hd h hI => cases hbc with
        | kept _ => exact .unknownDep d hd h hI
        | ignoredDep qs' hq' h' hn' =>
          obtain ⟨x, hx⟩ := List.exists_mem_of_ne_nil _ hq'
          cases (h' x hx).1
        | unknownDep d hd h hI => cases hd

theorem depKnown_iff (apis : List FnApi) (d : QName) :
    depKnown (validNames apis) d = true ↔ d ∈ validNames apis ∨ isKnownType d = true := by
  simp [depKnown]

theorem removeIgnored_final (apis : FnApiVec) (hi : apis.Inv) :
    ∃ ign', (∀ a ∈ apis.apis, a.isIgnored = true → a.name ∈ ign') ∧
      (∀ n ∈ ign', Tainted apis.apis n) ∧
      All2 (FinalRel (IgnoredName apis.apis) (validNames apis.apis) ign' (Tainted apis.apis)) apis.apis
        (removeIgnored apis).apis := by
  obtain ⟨ign', h1, h2, h3⟩ := riLoop_spec (IgnoredName apis.apis) (validNames apis.apis)
    (Tainted apis.apis) apis.apis hi.1
    (fun a ha d hd h => .dep a ha d hd h) ((apis.apis.filter (·.isIgnored)).map (·.name)) apis
    (by
      rintro n ⟨b, hb, hx, rfl⟩
      exact List.mem_map.2 ⟨b, by simp [hb, hx], rfl⟩)
    (by
      intro n hn
      obtain ⟨a, ha, rfl⟩ := List.mem_map.1 hn
      simp only [List.mem_filter] at ha
      exact .ignored a ha.1 ha.2)
    (All2.refl _ fun a _ => .kept)
  refine ⟨ign', fun a ha hx => h1 _ (List.mem_map.2 ⟨a, by simp [ha, hx], rfl⟩), h2, h3⟩

/-! ## C04: nothing vanishes -/

/-- **C04 (ignored-dependency filtering)**: items correspond one to one, in order, to the input items;
each is kept unchanged or replaced by a marker of the same names with a true reason. The loop's
termination is part of the definition of `removeIgnored`. -/
theorem remove_ignored_fates (apis : FnApiVec) (hi : apis.Inv) :
    All2 (Fate apis.apis) apis.apis (removeIgnored apis).apis := by
  obtain ⟨ign', _, _, h3⟩ := removeIgnored_final apis hi
  refine h3.mono fun a b _ h => ?_
  cases h with
  | kept h => exact .kept
  | ignoredDep qs hq h hn =>
    obtain ⟨ctx, e, hc⟩ := createIgnoreItem_eq a (.ignoredDependent qs)
    rw [e]; exact .ignoredDep qs hq h ctx hc
  | unknownDep d hd h h0 =>
    obtain ⟨ctx, e, hc⟩ := createIgnoreItem_eq a (.unknownDependentType d)
    rw [e]
    have : ¬ (d ∈ validNames apis.apis ∨ isKnownType d = true) := by
      rw [← depKnown_iff]; simp [h]
    exact .unknownDep d hd (fun h => this (Or.inl h)) (by
      cases hk : isKnownType d with
      | false => rfl
      | true => exact absurd (Or.inr hk) this) h0 ctx hc

/-- **C04**: exactly the same names are present afterwards, in the same order. -/
theorem remove_ignored_names (apis : FnApiVec) (hi : apis.Inv) :
    (removeIgnored apis).apis.map (·.nameInfo) = apis.apis.map (·.nameInfo) := by
  symm
  refine (remove_ignored_fates apis hi).map_eq (fun a b h => ?_)
  cases h <;> rfl

/-! ## C03: nothing that survives needs what was given up on -/

/-- **C03 (partial)**: a surviving item depends only on available or built-in types, and on nothing
tainted through known items. Missing for the full property: items replaced because of an *unknown*
type are not added to the ignored set, so their dependents survive
(`remove_ignored_unknown_false`). -/
theorem remove_ignored_sound_partial (apis : FnApiVec) (hi : apis.Inv) (a : FnApi)
    (ha : a ∈ (removeIgnored apis).apis) (hl : a.isIgnored = false) :
    a ∈ apis.apis ∧ ∀ d ∈ FnApi.deps a,
      (d ∈ validNames apis.apis ∨ isKnownType d = true) ∧ ¬ TaintedKnown apis.apis d := by
  obtain ⟨ign', h1, h2, h3⟩ := removeIgnored_final apis hi
  have hsub : ∀ n, TaintedKnown apis.apis n → n ∈ ign' := by
    intro n hn
    induction hn with
    | ignored b hb h => exact h1 b hb h
    | dep b hb hk d hd _ ih =>
      obtain ⟨c, _, hr⟩ := h3.left hb
      cases hr with
      | kept h => exact absurd ih (h d hd).2
      | ignoredDep _ _ _ hn => exact hn
      | unknownDep d' hd' h' h0 =>
        rcases hk d' hd' with hx | hx | hx
        · have := (depKnown_iff apis.apis d').2 (Or.inl hx)
          rw [this] at h'; cases h'
        · have := (depKnown_iff apis.apis d').2 (Or.inr hx)
          rw [this] at h'; cases h'
        · exact absurd hx (h0 d' hd')
  obtain ⟨b, hb, hr⟩ := h3.right ha
  cases hr with
  | kept h =>
    exact ⟨hb, fun d hd => ⟨(depKnown_iff _ _).1 (h d hd).1, fun ht => (h d hd).2 (hsub d ht)⟩⟩
  | ignoredDep => cases hl
  | unknownDep => cases hl

/-- **C03 (nothing is given up on needlessly)**: an item all of whose dependencies are known and
untainted survives unchanged. -/
theorem remove_ignored_complete (apis : FnApiVec) (hi : apis.Inv) (a : FnApi) (ha : a ∈ apis.apis)
    (hk : NoUnknown apis.apis a) (ht : ∀ d ∈ FnApi.deps a, ¬ Tainted apis.apis d) :
    a ∈ (removeIgnored apis).apis := by
  obtain ⟨b, hb, hr⟩ := (remove_ignored_fates apis hi).left ha
  cases hr with
  | kept => exact hb
  | ignoredDep qs hq h =>
    obtain ⟨x, hx⟩ := List.exists_mem_of_ne_nil _ hq
    exact absurd (h x hx).2 (ht x (h x hx).1)
  | unknownDep d hd h1 h2 h3 =>
    rcases hk d hd with h | h | h
    · exact absurd h h1
    · rw [h2] at h; cases h
    · exact absurd h (h3 d hd)

/-- **C03, when there are no unknown types (partial)**: exactly the items which do not depend,
directly or through other items, on an ignored item survive; and no survivor depends on anything that
is a marker in the result. -/
theorem remove_ignored_exact_partial (apis : FnApiVec) (hi : apis.Inv)
    (hk : ∀ a ∈ apis.apis, NoUnknown apis.apis a) (a : FnApi) (hl : a.isIgnored = false) :
    (a ∈ (removeIgnored apis).apis ↔ a ∈ apis.apis ∧ ∀ d ∈ FnApi.deps a, ¬ Tainted apis.apis d) ∧
    (a ∈ (removeIgnored apis).apis → ∀ d ∈ FnApi.deps a, ∀ b ∈ (removeIgnored apis).apis,
      b.name = d → b.isIgnored = false) := by
  have hsame : ∀ n, Tainted apis.apis n → TaintedKnown apis.apis n := by
    intro n hn
    induction hn with
    | ignored b hb h => exact .ignored b hb h
    | dep b hb d hd _ ih => exact .dep b hb (hk b hb) d hd ih
  refine ⟨⟨fun h => ?_, fun h => remove_ignored_complete apis hi a h.1 (hk a h.1) h.2⟩, ?_⟩
  · obtain ⟨h1, h2⟩ := remove_ignored_sound_partial apis hi a h hl
    exact ⟨h1, fun d hd ht => (h2 d hd).2 (hsame d ht)⟩
  · intro h d hd b hb hbd
    obtain ⟨h1, h2⟩ := remove_ignored_sound_partial apis hi a h hl
    have hnt : ¬ Tainted apis.apis d := fun ht => (h2 d hd).2 (hsame d ht)
    cases hbi : b.isIgnored with
    | false => rfl
    | true =>
      exfalso
      obtain ⟨c, hc, hr⟩ := (remove_ignored_fates apis hi).right hb
      cases hr with
      | kept => exact hnt (hbd ▸ .ignored b hc hbi)
      | ignoredDep qs hq h =>
        obtain ⟨x, hx⟩ := List.exists_mem_of_ne_nil _ hq
        exact hnt (hbd ▸ .dep c hc x (h x hx).1 (h x hx).2)
      | unknownDep e he h1 h2 h3 =>
        rcases hk c hc e he with h | h | h
        · exact absurd h h1
        · rw [h2] at h; cases h
        · exact absurd h (h3 e he)

/-- Items for the examples: a typedef-like item with the given dependencies. -/
def depItem (n : String) (deps : List String) : FnApi :=
  .rustFn ⟨⟨[], n⟩, none⟩ (deps.map fun d => ⟨[], d⟩)

theorem isKnownType_samples : ∀ n ∈ ["A", "B", "X", "F", "G"], isKnownType ⟨[], n⟩ = false := by
  unfold isKnownType
  simp only [knownGet_eq_lit]
  decide +kernel

/-- **C03 is false of the code**: `A` is given up on because it needs the unknown `X`, yet `B`, which
needs `A`, survives. -/
theorem remove_ignored_unknown_false :
    ∃ apis : FnApiVec, apis.Inv ∧ ∃ a b : FnApi, a ∈ (removeIgnored apis).apis ∧
      b ∈ (removeIgnored apis).apis ∧ a.isIgnored = true ∧ b.isIgnored = false ∧
      a.name ∈ FnApi.deps b := by
  let apis : FnApiVec := { apis := [depItem "A" ["X"], depItem "B" ["A"]],
                           names := [⟨[], "A"⟩, ⟨[], "B"⟩] }
  have hX := isKnownType_samples "X" (by simp)
  have hA := isKnownType_samples "A" (by simp)
  have hp : riPass [⟨[], "A"⟩, ⟨[], "B"⟩] [] apis.apis =
      ([], false, [createIgnoreItem (depItem "A" ["X"]) (.unknownDependentType ⟨[], "X"⟩),
        depItem "B" ["A"]]) := by
    simp [apis, riPass, depItem, FnApi.deps, depKnown, hX]
  have hr : (removeIgnored apis).apis =
      [createIgnoreItem (depItem "A" ["X"]) (.unknownDependentType ⟨[], "X"⟩),
        depItem "B" ["A"]] := by
    have e1 : (apis.apis.filter (!·.isIgnored)).flatMap Api.validTypes = [⟨[], "A"⟩, ⟨[], "B"⟩] := rfl
    have e2 : (apis.apis.filter (·.isIgnored)).map (·.name) = [] := rfl
    unfold removeIgnored
    rw [e1, e2]
    unfold riLoop
    rw [hp]
    exact fromIter_same_names apis.apis _ rfl (by decide)
  refine ⟨apis, ⟨by decide, rfl⟩, createIgnoreItem (depItem "A" ["X"]) (.unknownDependentType ⟨[], "X"⟩),
    depItem "B" ["A"], by rw [hr]; simp, by rw [hr]; simp, rfl, rfl, by decide⟩

/-- A chain `F → G → H` where `H` was ignored: the hypotheses of the exact theorem are met, `F` is
tainted and `A` is not given up on. -/
example : let apis : FnApiVec :=
      { apis := [depItem "F" ["G"], depItem "G" ["H"], depItem "A" [],
          .ignoredItem ⟨⟨[], "H"⟩, none⟩ .variadic none],
        names := [⟨[], "F"⟩, ⟨[], "G"⟩, ⟨[], "A"⟩, ⟨[], "H"⟩] }
    apis.Inv ∧ (∀ a ∈ apis.apis, NoUnknown apis.apis a) ∧ Tainted apis.apis ⟨[], "F"⟩ ∧
      depItem "A" [] ∈ (removeIgnored apis).apis ∧ depItem "F" ["G"] ∉ (removeIgnored apis).apis := by
  intro apis
  have hi : apis.Inv := ⟨by decide, rfl⟩
  have hk : ∀ a ∈ apis.apis, NoUnknown apis.apis a := by
    intro a ha d hd
    simp only [apis, List.mem_cons, List.not_mem_nil, or_false] at ha
    rcases ha with rfl | rfl | rfl | rfl
    · simp [depItem, FnApi.deps] at hd; subst hd
      exact Or.inl (by decide)
    · simp [depItem, FnApi.deps] at hd; subst hd
      exact Or.inr (Or.inr ⟨.ignoredItem ⟨⟨[], "H"⟩, none⟩ .variadic none, by simp [apis], rfl, rfl⟩)
    · cases hd
    · cases hd
  have ht : Tainted apis.apis ⟨[], "G"⟩ :=
    .dep (depItem "G" ["H"]) (by simp [apis]) ⟨[], "H"⟩ (by decide)
      (.ignored (.ignoredItem ⟨⟨[], "H"⟩, none⟩ .variadic none) (by simp [apis]) rfl)
  refine ⟨hi, hk, .dep (depItem "F" ["G"]) (by simp [apis]) ⟨[], "G"⟩ (by decide) ht, ?_, ?_⟩
  · exact remove_ignored_complete apis hi _ (by simp [apis]) (hk _ (by simp [apis])) (by
      intro d hd; cases hd)
  · intro h
    exact (((remove_ignored_exact_partial apis hi hk _ rfl).1).1 h).2 ⟨[], "G"⟩ (by decide) ht

end Verif
