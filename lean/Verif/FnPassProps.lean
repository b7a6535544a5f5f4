import Verif.FnStateProps
import Verif.PodPassMore
import Verif.TrackersProps
import Verif.FnPass

/-!
# The pass over all functions

Nothing is lost in function analysis, nothing appears from nowhere, and names in the bridge are told apart.
-/

set_option autoImplicit false

namespace Verif

/-! ### Collecting items in a vector -/

section
variable {T S F : Type}

/-- The vector holds the items of the list: each under its name unless another has the same name, and nothing else but
markers for such cases. -/
structure Held (v : ApiVec T S F) (l : List (Api T S F)) : Prop where
  inv : v.Inv
  named : ∀ x ∈ l, ∃ y ∈ v.apis, y.name = x.name
  from_ : ∀ y ∈ v.apis, y ∈ l ∨ y.IsDup ∧ ∃ x ∈ l, x.name = y.name
  kept : ∀ x, (l.filter fun y => y.name = x.name) = [x] → x ∈ v.apis

theorem Held.empty : Held ({} : ApiVec T S F) [] :=
  ⟨ApiVec.inv_empty, by simp, by simp, by simp⟩

theorem filter_names_nil {l : List (Api T S F)} {q : QName} (h : (l.filter fun y => y.name = q) = []) :
    ∀ x ∈ l, x.name ≠ q := by
  intro x hx
  simpa using List.filter_eq_nil_iff.1 h x hx

theorem Held.push {v : ApiVec T S F} {l : List (Api T S F)} (h : Held v l) (z : Api T S F) :
    Held (v.push z) (l ++ [z]) := by
  have hp := ApiVec.push_apis h.inv z
  refine ⟨ApiVec.push_inv h.inv z, ?_, ?_, ?_⟩
  · intro x hx
    rw [hp]
    have hx : (∃ y ∈ v.apis, y.name = x.name) ∨ x = z := by
      rcases List.mem_append.1 hx with hx | hx
      · exact .inl (h.named x hx)
      · exact .inr (List.mem_singleton.1 hx)
    split
    · rename_i hc
      have hx : ∃ y ∈ v.apis, y.name = x.name := by
        rcases hx with hx | rfl
        · exact hx
        · exact hc
      obtain ⟨y, hy, hn⟩ := hx
      split
      · exact ⟨y, hy, hn⟩
      · by_cases e : y.name = z.name
        · exact ⟨ApiVec.duplicateMarker z.name, by simp, e.symm.trans hn⟩
        · exact ⟨y, List.mem_append_left _ (List.mem_filter.2 ⟨hy, by simpa using e⟩), hn⟩
    · rcases hx with ⟨y, hy, hn⟩ | rfl
      · exact ⟨y, List.mem_append_left _ hy, hn⟩
      · exact ⟨x, by simp, rfl⟩
  · intro y hy
    have old : y ∈ v.apis → y ∈ l ++ [z] ∨ y.IsDup ∧ ∃ x ∈ l ++ [z], x.name = y.name := by
      intro hy
      rcases h.from_ y hy with h1 | ⟨h1, x, hx, hn⟩
      · exact .inl (List.mem_append_left _ h1)
      · exact .inr ⟨h1, x, List.mem_append_left _ hx, hn⟩
    rw [hp] at hy
    split at hy
    · split at hy
      · exact old hy
      · rcases List.mem_append.1 hy with hy | hy
        · exact old (List.mem_filter.1 hy).1
        · rw [List.mem_singleton] at hy; subst hy; exact .inr ⟨rfl, z, by simp, rfl⟩
    · rcases List.mem_append.1 hy with hy | hy
      · exact old hy
      · exact .inl (List.mem_append_right _ hy)
  · intro x hx
    rw [hp]
    rw [List.filter_append] at hx
    by_cases e : z.name = x.name
    · have e1 : ([z].filter fun y => y.name = x.name) = [z] := by simp [e]
      rw [e1] at hx
      have hnil : (l.filter fun y => y.name = x.name) = [] := by
        have := congrArg List.length hx
        simp only [List.length_append, List.length_cons, List.length_nil] at this
        exact List.length_eq_zero_iff.1 (by omega)
      rw [hnil] at hx
      have : z = x := by simpa using hx
      subst this
      have hno : ¬ ∃ b ∈ v.apis, b.name = z.name := by
        rintro ⟨b, hb, hn⟩
        rcases h.from_ b hb with h1 | ⟨_, y, hy, hn'⟩
        · exact filter_names_nil hnil b h1 hn
        · exact filter_names_nil hnil y hy (hn'.trans hn)
      rw [if_neg hno]
      simp
    · have e1 : ([z].filter fun y => y.name = x.name) = [] := by simp [e]
      rw [e1, List.append_nil] at hx
      have hx := h.kept x hx
      split
      · split
        · exact hx
        · exact List.mem_append_left _ (List.mem_filter.2 ⟨hx, by simpa using fun e' => e e'.symm⟩)
      · exact List.mem_append_left _ hx

theorem Held.extend {v : ApiVec T S F} {l : List (Api T S F)} (h : Held v l) (m : List (Api T S F)) :
    Held (v.extend m) (l ++ m) := by
  induction m generalizing v l with
  | nil => rw [List.append_nil]; exact h
  | cons z m ih =>
    have := ih (h.push z)
    rw [List.append_assoc] at this
    exact this

/-- A vector may be collected before it is added. -/
theorem Held.block {v w : ApiVec T S F} {l m : List (Api T S F)} (h : Held v l) (hw : Held w m) :
    Held (v.extend w.apis) (l ++ m) := by
  have he := h.extend w.apis
  refine ⟨he.inv, ?_, ?_, ?_⟩
  · intro x hx
    rcases List.mem_append.1 hx with hx | hx
    · exact he.named x (List.mem_append_left _ hx)
    · obtain ⟨y, hy, hn⟩ := hw.named x hx
      obtain ⟨z, hz, hn'⟩ := he.named y (List.mem_append_right _ hy)
      exact ⟨z, hz, hn'.trans hn⟩
  · have old : ∀ x ∈ l ++ w.apis, x ∈ l ++ m ∨ x.IsDup ∧ ∃ z ∈ l ++ m, z.name = x.name := by
      intro x hx
      rcases List.mem_append.1 hx with hx | hx
      · exact .inl (List.mem_append_left _ hx)
      · rcases hw.from_ x hx with h1 | ⟨h1, z, hz, hn⟩
        · exact .inl (List.mem_append_right _ h1)
        · exact .inr ⟨h1, z, List.mem_append_right _ hz, hn⟩
    intro y hy
    rcases he.from_ y hy with h1 | ⟨h1, x, hx, hn⟩
    · exact old y h1
    · rcases old x hx with h2 | ⟨_, z, hz, hn'⟩
      · exact .inr ⟨h1, x, h2, hn⟩
      · exact .inr ⟨h1, z, hz, hn'.trans hn⟩
  · intro x hx
    apply he.kept
    rw [List.filter_append] at hx ⊢
    have hsplit : (l.filter fun y => y.name = x.name) = [x] ∧ (m.filter fun y => y.name = x.name) = [] ∨
        (l.filter fun y => y.name = x.name) = [] ∧ (m.filter fun y => y.name = x.name) = [x] := by
      cases hl : l.filter fun y => y.name = x.name with
      | nil => rw [hl] at hx; exact .inr ⟨rfl, by simpa using hx⟩
      | cons a t =>
        rw [hl] at hx
        simp only [List.cons_append, List.cons.injEq, List.append_eq_nil_iff] at hx
        exact .inl ⟨by rw [hx.1, hx.2.1], hx.2.2⟩
    have none_ : (m.filter fun y => y.name = x.name) = [] → (w.apis.filter fun y => y.name = x.name) = [] := by
      intro hm
      rw [List.filter_eq_nil_iff]
      intro y hy
      rcases hw.from_ y hy with h1 | ⟨_, z, hz, hn⟩
      · simpa using filter_names_nil hm y h1
      · have := filter_names_nil hm z hz
        rw [hn] at this
        simpa using this
    rcases hsplit with ⟨h1, h2⟩ | ⟨h1, h2⟩
    · rw [h1, none_ h2]; rfl
    · have hmem := hw.kept x h2
      rw [h1, List.nil_append]
      have hnd := hw.inv.1
      generalize w.apis = ws at hmem hnd
      clear none_ he hw h2 h1 hx
      induction ws with
      | nil => cases hmem
      | cons a ws ih =>
        rw [List.map_cons, List.nodup_cons] at hnd
        rcases List.mem_cons.1 hmem with rfl | hmem
        · rw [List.filter_cons_of_pos (by simp)]
          congr 1
          rw [List.filter_eq_nil_iff]
          intro y hy hn
          exact hnd.1 (List.mem_map.2 ⟨y, hy, by simpa using hn⟩)
        · have hne : ¬ (decide (a.name = x.name)) = true := by
            simp only [decide_eq_true_eq]
            intro e
            exact hnd.1 (List.mem_map.2 ⟨x, hmem, e.symm⟩)
          rw [List.filter_cons, if_neg hne]
          exact ih hmem hnd.2

theorem Held.map {T' S' F' : Type} {v : ApiVec T S F} {l : List (Api T S F)} (h : Held v l)
    (g : Api T S F → Api T' S' F') (hn : ∀ x, (g x).name = x.name) (hi : ∀ x : Api T S F, x.IsDup → (g x).IsDup) :
    Held (ApiVec.fromIter (v.apis.map g)) (l.map g) := by
  have hnd : ((v.apis.map g).map (·.name)).Nodup := by
    rw [List.map_map]
    have : ((fun x : Api T' S' F' => x.name) ∘ g) = fun x => x.name := funext hn
    rw [this]
    exact h.inv.1
  have hap := fromIter_apis _ hnd
  refine ⟨fromIter_inv _, ?_, ?_, ?_⟩
  · intro x hx
    obtain ⟨x, hx', rfl⟩ := List.mem_map.1 hx
    obtain ⟨y, hy, e⟩ := h.named x hx'
    rw [hap]
    exact ⟨g y, List.mem_map_of_mem hy, by rw [hn, hn, e]⟩
  · intro y hy
    rw [hap] at hy
    obtain ⟨y, hy', rfl⟩ := List.mem_map.1 hy
    rcases h.from_ y hy' with h1 | ⟨h1, x, hx, e⟩
    · exact .inl (List.mem_map_of_mem h1)
    · exact .inr ⟨hi _ h1, g x, List.mem_map_of_mem hx, by rw [hn, hn, e]⟩
  · intro x hx
    rw [hap]
    rw [List.filter_map] at hx
    have : ((fun y : Api T' S' F' => decide (y.name = x.name)) ∘ g) = fun y => decide (y.name = x.name) := by
      funext y; simp [hn]
    rw [this] at hx
    cases hl : l.filter fun y => y.name = x.name with
    | nil => rw [hl] at hx; cases hx
    | cons a t =>
      rw [hl] at hx
      simp only [List.map_cons, List.cons.injEq, List.map_eq_nil_iff] at hx
      obtain ⟨rfl, rfl⟩ := hx
      refine List.mem_map_of_mem (h.kept a ?_)
      rw [← hn a]
      exact hl

end

/-! ### The analyses of a pass, in order -/

/-- One analysis of a function: what was asked and what came out. -/
structure FnRun where
  s : FnState
  name : ApiName
  f : FuncToConvert
  soph : Sophistication
  pre : Option String
  s' : FnState
  a : FnAnalysis
  n : ApiName

/-- The analysis did happen so. -/
def FnRun.Ok (env : FnEnv) (r : FnRun) : Prop :=
  analyzeForeignFn env r.s r.name r.f r.soph r.pre = .done (r.s', r.a, r.n)

/-- The item of a function analysed. -/
def FnRun.item {T S : Type} (r : FnRun) : Api T S FnAnalysis := .function r.n r.f r.a

/-- The question asked of the analysis. -/
def FnRun.Asks (r : FnRun) (name : ApiName) (f : FuncToConvert) (soph : Sophistication) (pre : Option String) : Prop :=
  r.name = name ∧ r.f = f ∧ r.soph = soph ∧ r.pre = pre

/-- Analyses each of which starts from the state the one before it left, except that names of trait items may have been
noted in between. -/
inductive Trace (env : FnEnv) : FnState → List FnRun → FnState → Prop
  | nil {s : FnState} (t : List QName) : Trace env s [] { s with traitNames := t }
  | cons {s s' : FnState} {r : FnRun} {tr : List FnRun} (hs : r.s = { s with traitNames := r.s.traitNames })
      (h : r.Ok env) (ht : Trace env r.s' tr s') : Trace env s (r :: tr) s'

theorem Trace.refl {env : FnEnv} (s : FnState) : Trace env s [] s := .nil s.traitNames

theorem Trace.retrait {env : FnEnv} {s s' : FnState} {tr : List FnRun} (h : Trace env s tr s') (t : List QName) :
    Trace env { s with traitNames := t } tr s' := by
  cases h with
  | nil t => exact .nil (s := { s with traitNames := _ }) t
  | cons hs h ht => exact .cons hs h ht

theorem Trace.append {env : FnEnv} {s s1 s2 : FnState} {tr tr' : List FnRun} (h : Trace env s tr s1)
    (h' : Trace env s1 tr' s2) : Trace env s (tr ++ tr') s2 := by
  induction h with
  | nil t => exact h'.retrait _
  | cons hs h _ ih => exact .cons hs h (ih h')

theorem Trace.one {env : FnEnv} {s s' : FnState} {name n : ApiName} {f : FuncToConvert} {soph : Sophistication}
    {pre : Option String} {a : FnAnalysis} (h : analyzeForeignFn env s name f soph pre = .done (s', a, n)) :
    Trace env s [⟨s, name, f, soph, pre, s', a, n⟩] s' :=
  .cons rfl h (.refl _)

theorem Trace.ok {env : FnEnv} {s s' : FnState} {tr : List FnRun} (h : Trace env s tr s') : ∀ r ∈ tr, r.Ok env := by
  induction h with
  | nil => simp
  | cons _ h _ ih => intro r hr; rcases List.mem_cons.1 hr with rfl | hr; exacts [h, ih r hr]

/-- The names of the trait items in a list. -/
def traitItems {T S F : Type} (l : List (Api T S F)) : List QName := l.filterMap fun a => match a with
  | .subclassTraitItem n _ => some n.name
  | _ => none

theorem traitItems_append {T S F : Type} (l m : List (Api T S F)) :
    traitItems (l ++ m) = traitItems l ++ traitItems m := List.filterMap_append

/-- The subclasses Rust code defines of a class. -/
def FnEnv.subsOf (env : FnEnv) (sup : QName) : List ApiName := (AMap.get? env.subclasses sup).getD []

/-! ### What is made for one subclass -/

/-- An override is there for a subclass: it calls into Rust, depends on the trait item, and on the function which calls
the superclass unless the method is pure virtual. -/
def OverrideMade (env : FnEnv) (r r2 : FnRun) (sup : QName) (recv : ReceiverMutability) (sub : ApiName)
    (traits : List QName) (tr : List FnRun) (l : List FnPre1Api) : Prop :=
  traitApiName sup r.a.rustName ∈ traits ∧
  ∃ deps, subclassFunction env.policy sub r2.a r.n recv sup deps ∈ l ∧
    (r2.a.kind.isPure = true ∧ deps = [traitApiName sup r.a.rustName] ∨
     r2.a.kind.isPure = false ∧ ∃ r3 ∈ tr, r3.Asks (ApiName.ofQName (superFnName [] r.a.cxxbridgeName))
        (superFnWrapper sub (superFnName [] r.a.rustName) r.f) .simpleForSubclasses none ∧
        r3.item ∈ l ∧ deps = [traitApiName sup r.a.rustName, r3.n.name])

/-- A function is there, and all the overrides which follow from it. -/
def FnMade (env : FnEnv) (name : ApiName) (f : FuncToConvert) (traits : List QName) (tr : List FnRun)
    (l : List FnPre1Api) : Prop :=
  ∃ r ∈ tr, r.Asks name f .regular none ∧ r.item ∈ l ∧
    ∀ sup recv, r.a.kind.virtualOf = some (sup, recv) →
      ∃ r2 ∈ tr, r2.Asks r.n f .simpleForSubclasses (some r.a.rustName) ∧
        ∀ sub ∈ env.subsOf sup, OverrideMade env r r2 sup recv sub traits tr l

theorem OverrideMade.mono {env : FnEnv} {r r2 : FnRun} {sup : QName} {recv : ReceiverMutability} {sub : ApiName}
    {t t' : List QName} {tr tr' : List FnRun} {l l' : List FnPre1Api}
    (h : OverrideMade env r r2 sup recv sub t tr l) (ht : t ⊆ t') (htr : tr ⊆ tr') (hl : l ⊆ l') :
    OverrideMade env r r2 sup recv sub t' tr' l' := by
  obtain ⟨h1, deps, h2, h3⟩ := h
  refine ⟨ht h1, deps, hl h2, ?_⟩
  rcases h3 with h3 | ⟨h3, r3, h4, h5, h6, h7⟩
  · exact .inl h3
  · exact .inr ⟨h3, r3, htr h4, h5, hl h6, h7⟩

theorem FnMade.mono {env : FnEnv} {name : ApiName} {f : FuncToConvert} {t t' : List QName} {tr tr' : List FnRun}
    {l l' : List FnPre1Api} (h : FnMade env name f t tr l) (ht : t ⊆ t') (htr : tr ⊆ tr') (hl : l ⊆ l') :
    FnMade env name f t' tr' l' := by
  obtain ⟨r, h1, h2, h3, h4⟩ := h
  refine ⟨r, htr h1, h2, hl h3, fun sup recv hv => ?_⟩
  obtain ⟨r2, h5, h6, h7⟩ := h4 sup recv hv
  exact ⟨r2, htr h5, h6, fun sub hsub => (h7 sub hsub).mono ht htr hl⟩

/-- Where the items made for a function come from. -/
inductive FnItem (env : FnEnv) (tr : List FnRun) : FnPre1Api → Prop
  | fn {r : FnRun} (h : r ∈ tr) (hp : r.pre = none) : FnItem env tr r.item
  | override_ {r r2 : FnRun} (h : r ∈ tr) (h2 : r2 ∈ tr) {sup : QName} {recv : ReceiverMutability}
      (hv : r.a.kind.virtualOf = some (sup, recv)) {sub : ApiName} (hs : sub ∈ env.subsOf sup) (deps : List QName)
      (ha : r2.Asks r.n r.f .simpleForSubclasses (some r.a.rustName)) (hd : traitApiName sup r.a.rustName ∈ deps) :
      FnItem env tr (subclassFunction env.policy sub r2.a r.n recv sup deps)
  | trait_ {r r2 : FnRun} (h : r ∈ tr) (h2 : r2 ∈ tr) {sup : QName} {recv : ReceiverMutability}
      (hv : r.a.kind.virtualOf = some (sup, recv)) {sub : ApiName} (hs : sub ∈ env.subsOf sup)
      (ha : r2.Asks r.n r.f .simpleForSubclasses (some r.a.rustName)) :
      FnItem env tr (subclassTraitItem env.policy (traitApiName sup r.a.rustName) r2.a recv sup r2.a.kind.isPure)

/-- Why a function was analysed, when a class has virtual methods. -/
inductive AskedFor (env : FnEnv) (tr : List FnRun) (r' : FnRun) : Prop
  | again {r : FnRun} (h : r ∈ tr) {sup : QName} {recv : ReceiverMutability}
      (hv : r.a.kind.virtualOf = some (sup, recv))
      (ha : r'.Asks r.n r.f .simpleForSubclasses (some r.a.rustName))
  | super_ {r : FnRun} (h : r ∈ tr) {sup : QName} {recv : ReceiverMutability}
      (hv : r.a.kind.virtualOf = some (sup, recv)) {sub : ApiName} (hs : sub ∈ env.subsOf sup)
      (ha : r'.Asks (ApiName.ofQName (superFnName [] r.a.cxxbridgeName))
        (superFnWrapper sub (superFnName [] r.a.rustName) r.f) .simpleForSubclasses none)

theorem FnItem.of {env : FnEnv} {tr : List FnRun} {n : ApiName} {f : FuncToConvert} {a : FnAnalysis}
    (h : ∃ r ∈ tr, r.n = n ∧ r.f = f ∧ r.a = a ∧ r.pre = none) : FnItem env tr (.function n f a) := by
  obtain ⟨r, hr, rfl, rfl, rfl, hp⟩ := h
  exact .fn hr hp

theorem FnItem.mono {env : FnEnv} {tr tr' : List FnRun} {x : FnPre1Api} (h : FnItem env tr x) (ht : tr ⊆ tr') :
    FnItem env tr' x := by
  cases h with
  | fn h hp => exact .fn (ht h) hp
  | override_ h h2 hv hs deps ha hd => exact .override_ (ht h) (ht h2) hv hs deps ha hd
  | trait_ h h2 hv hs ha => exact .trait_ (ht h) (ht h2) hv hs ha

theorem AskedFor.mono {env : FnEnv} {tr tr' : List FnRun} {x : FnRun} (h : AskedFor env tr x) (ht : tr ⊆ tr') :
    AskedFor env tr' x := by
  cases h with
  | again h hv ha => exact .again (ht h) hv ha
  | super_ h hv hs ha => exact .super_ (ht h) hv hs ha

theorem forSubclass_made {env : FnEnv} {r r2 : FnRun} {recv : ReceiverMutability}
    {sup : QName} {sub : ApiName} {s s' : FnState} {v v' : ApiVec TypedefAnalysis PodAnalysis FnAnalysis}
    {l : List FnPre1Api}
    (hv : r.a.kind.virtualOf = some (sup, recv)) (hsub : sub ∈ env.subsOf sup)
    (ha : r2.Asks r.n r.f .simpleForSubclasses (some r.a.rustName))
    (h : forSubclass env r.f r.a r2.a r.n recv sup sub s v = .done (s', v')) (hl : Held v l)
    (hnd : s.traitNames.Nodup) :
    ∃ tr m, Trace env s tr s' ∧ Held v' (l ++ m) ∧ OverrideMade env r r2 sup recv sub s'.traitNames tr m ∧
      s'.traitNames = s.traitNames ++ traitItems m ∧ s'.traitNames.Nodup ∧
      (∀ x ∈ m, FnItem env (r :: r2 :: tr) x) ∧ ∀ r' ∈ tr, AskedFor env [r] r' := by
  rw [forSubclass] at h
  obtain ⟨⟨s1, v1, deps⟩, h1, h⟩ := PassRun.bind_done.1 h
  dsimp only at h
  -- the function which calls the superclass
  have step : ∃ tr m, Trace env s tr s1 ∧ Held v1 (l ++ m) ∧ s1.traitNames = s.traitNames ∧ traitItems m = [] ∧
      (r2.a.kind.isPure = true ∧ deps = [traitApiName sup r.a.rustName] ∨
       r2.a.kind.isPure = false ∧ ∃ r3 ∈ tr, r3.Asks (ApiName.ofQName (superFnName [] r.a.cxxbridgeName))
        (superFnWrapper sub (superFnName [] r.a.rustName) r.f) .simpleForSubclasses none ∧
        r3.item ∈ m ∧ deps = [traitApiName sup r.a.rustName, r3.n.name]) ∧
      (∀ x ∈ m, FnItem env (r :: r2 :: tr) x) ∧ ∀ r' ∈ tr, AskedFor env [r] r' := by
    split at h1
    · rename_i hp
      cases h1
      exact ⟨[], [], .refl _, by rw [List.append_nil]; exact hl, rfl, rfl, .inl ⟨hp, rfl⟩, by simp, by simp⟩
    · rename_i hp
      obtain ⟨⟨s2, v2, q⟩, h2, h1⟩ := PassRun.bind_done.1 h1
      cases h1
      rw [analyzeAndAdd] at h2
      obtain ⟨⟨s3, a3, n3⟩, h3, h2⟩ := PassRun.bind_done.1 h2
      cases h2
      refine ⟨_, [.function n3 _ a3], .one h3, hl.push _, (analyze_bridge h3).2, rfl,
        .inr ⟨by simpa using hp, _, List.mem_singleton_self _, ⟨rfl, rfl, rfl, rfl⟩, List.mem_singleton_self _, rfl⟩,
        ?_, ?_⟩
      · intro x hx
        rw [List.mem_singleton] at hx
        subst hx
        exact FnItem.of ⟨_, List.mem_cons_of_mem _ (List.mem_cons_of_mem _ (List.mem_singleton_self _)), rfl, rfl, rfl, rfl⟩
      · intro r' hr'
        rw [List.mem_singleton] at hr'
        subst hr'
        exact .super_ (by simp) hv hsub ⟨rfl, rfl, rfl, rfl⟩
  obtain ⟨tr, m, ht, hh, htn, hti, hd, hi, hk⟩ := step
  have hh2 := hh.push (subclassFunction env.policy sub r2.a r.n recv sup deps)
  have hov : ∀ x ∈ m ++ [subclassFunction env.policy sub r2.a r.n recv sup deps], FnItem env (r :: r2 :: tr) x := by
    intro x hx
    rcases List.mem_append.1 hx with hx | hx
    · exact hi x hx
    · rw [List.mem_singleton] at hx
      subst hx
      refine .override_ (by simp) (by simp) hv hsub deps ha ?_
      rcases hd with ⟨-, rfl⟩ | ⟨-, _, -, -, -, rfl⟩ <;> exact List.mem_cons_self
  have hti2 : traitItems (m ++ [subclassFunction env.policy sub r2.a r.n recv sup deps]) = [] := by
    rw [traitItems_append, hti]; rfl
  split at h
  · rename_i hmem
    cases h
    refine ⟨tr, _, ht, by rw [← List.append_assoc]; exact hh2, ⟨hmem, deps, by simp, ?_⟩, ?_, ?_, hov, hk⟩
    · rcases hd with hd | ⟨hp, r3, h3, ha3, hi3, hd3⟩
      · exact .inl hd
      · exact .inr ⟨hp, r3, h3, ha3, List.mem_append_left _ hi3, hd3⟩
    · rw [hti2, htn, List.append_nil]
    · rw [htn]; exact hnd
  · rename_i hmem
    cases h
    refine ⟨tr, (m ++ [subclassFunction env.policy sub r2.a r.n recv sup deps]) ++ [subclassTraitItem env.policy
      (traitApiName sup r.a.rustName) r2.a recv sup r2.a.kind.isPure], ?_, ?_,
      ⟨List.mem_append_right _ (List.mem_singleton_self _), deps,
        List.mem_append_left _ (List.mem_append_right _ (List.mem_singleton_self _)), ?_⟩, ?_, ?_, ?_, hk⟩
    · rw [← List.append_nil tr]; exact ht.append (.nil _)
    · rw [← List.append_assoc, ← List.append_assoc]; exact hh2.push _
    · rcases hd with hd | ⟨hp, r3, h3, ha3, hi3, hd3⟩
      · exact .inl hd
      · exact .inr ⟨hp, r3, h3, ha3, by simp [hi3], hd3⟩
    · rw [traitItems_append, hti2]; simp only [htn]; rfl
    · rw [htn] at hmem ⊢
      rw [List.nodup_append]
      refine ⟨hnd, by simp, ?_⟩
      intro x hx y hy e
      rw [List.mem_singleton] at hy
      subst hy e
      exact hmem hx
    · intro x hx
      rcases List.mem_append.1 hx with hx | hx
      · exact hov x hx
      · rw [List.mem_singleton] at hx; subst hx; exact .trait_ (by simp) (by simp) hv hsub ha

theorem forSubclasses_made {env : FnEnv} {r r2 : FnRun} {recv : ReceiverMutability}
    {sup : QName} (hv : r.a.kind.virtualOf = some (sup, recv))
    (ha : r2.Asks r.n r.f .simpleForSubclasses (some r.a.rustName)) {subs : List ApiName} {s s' : FnState}
    {v v' : ApiVec TypedefAnalysis PodAnalysis FnAnalysis} {l : List FnPre1Api} (hsub : subs ⊆ env.subsOf sup)
    (h : forSubclasses env r.f r.a r2.a r.n recv sup subs s v = .done (s', v')) (hl : Held v l)
    (hnd : s.traitNames.Nodup) :
    ∃ tr m, Trace env s tr s' ∧ Held v' (l ++ m) ∧
      (∀ sub ∈ subs, OverrideMade env r r2 sup recv sub s'.traitNames tr m) ∧
      s'.traitNames = s.traitNames ++ traitItems m ∧ s'.traitNames.Nodup ∧
      (∀ x ∈ m, FnItem env (r :: r2 :: tr) x) ∧ ∀ r' ∈ tr, AskedFor env [r] r' := by
  induction subs generalizing s v l with
  | nil =>
    cases h
    exact ⟨[], [], .refl _, by rw [List.append_nil]; exact hl, by simp, by simp [traitItems], hnd, by simp, by simp⟩
  | cons sub subs ih =>
    rw [forSubclasses] at h
    obtain ⟨⟨s1, v1⟩, h1, h⟩ := PassRun.bind_done.1 h
    obtain ⟨tr, m, a1, a2, a3, a4, a5, a6, a7⟩ := forSubclass_made hv (hsub (by simp)) ha h1 hl hnd
    obtain ⟨tr', m', b1, b2, b3, b4, b5, b6, b7⟩ := ih (fun x hx => hsub (List.mem_cons_of_mem _ hx)) h a2 a5
    refine ⟨tr ++ tr', m ++ m', a1.append b1, by rw [← List.append_assoc]; exact b2, ?_, ?_, b5, ?_, ?_⟩
    · intro x hx
      rcases List.mem_cons.1 hx with rfl | hx
      · exact a3.mono (by rw [b4]; simp) (by simp) (by simp)
      · exact (b3 x hx).mono (by simp) (by simp) (by simp)
    · rw [b4, a4, traitItems_append, List.append_assoc]
    · intro x hx
      rcases List.mem_append.1 hx with hx | hx
      · refine (a6 x hx).mono ?_
        intro y hy; simp only [List.mem_cons, List.mem_append] at hy ⊢; tauto
      · refine (b6 x hx).mono ?_
        intro y hy; simp only [List.mem_cons, List.mem_append] at hy ⊢; tauto
    · intro x hx
      rcases List.mem_append.1 hx with hx | hx
      exacts [a7 x hx, b7 x hx]

/-- What comes of one function. -/
theorem analyzeFnAndSubclasses_made {env : FnEnv} {s s' : FnState} {name : ApiName} {f : FuncToConvert}
    {out : List FnPre1Api} (h : analyzeFnAndSubclasses env s name f = .done (s', out)) (hnd : s.traitNames.Nodup) :
    ∃ tr m v, Trace env s tr s' ∧ out = ApiVec.apis v ∧ Held v m ∧ FnMade env name f s'.traitNames tr m ∧
      s'.traitNames = s.traitNames ++ traitItems m ∧ s'.traitNames.Nodup ∧ (∀ x ∈ m, FnItem env tr x) ∧
      ∀ r ∈ tr, r.Asks name f .regular none ∨ AskedFor env tr r := by
  rw [analyzeFnAndSubclasses] at h
  obtain ⟨⟨s1, a, n⟩, h1, h⟩ := PassRun.bind_done.1 h
  dsimp only at h
  have htn := (analyze_bridge h1).2
  cases hv : a.kind.virtualOf with
  | none =>
    rw [hv] at h
    cases h
    refine ⟨_, [.function n f a], ApiVec.push {} (.function n f a), .one h1, rfl, Held.empty.push _, ?_,
      by rw [htn]; simp [traitItems], by rw [htn]; exact hnd, ?_, ?_⟩
    · refine ⟨_, List.mem_singleton_self _, ⟨rfl, rfl, rfl, rfl⟩, List.mem_singleton_self _, ?_⟩
      intro sup recv hv'
      exact absurd (hv.symm.trans hv') (by simp)
    · intro x hx
      rw [List.mem_singleton] at hx
      subst hx
      exact FnItem.of ⟨_, List.mem_singleton_self _, rfl, rfl, rfl, rfl⟩
    · intro r hr
      rw [List.mem_singleton] at hr
      subst hr
      exact .inl ⟨rfl, rfl, rfl, rfl⟩
  | some p =>
    obtain ⟨sup, recv⟩ := p
    rw [hv] at h
    dsimp only at h
    obtain ⟨⟨s2, simple, n2⟩, h2, h⟩ := PassRun.bind_done.1 h
    obtain ⟨⟨s3, v⟩, h3, h⟩ := PassRun.bind_done.1 h
    cases h
    have htn2 := (analyze_bridge h2).2
    have hnd2 : s2.traitNames.Nodup := by rw [htn2, htn]; exact hnd
    obtain ⟨tr, m, b1, b2, b3, b4, b5, b6, b7⟩ := forSubclasses_made (env := env) (r := ⟨s, name, f, .regular, none, s1, a, n⟩)
      (r2 := ⟨s1, n, f, .simpleForSubclasses, some a.rustName, s2, simple, n2⟩) hv ⟨rfl, rfl, rfl, rfl⟩
      (List.Subset.refl _) h3 Held.empty hnd2
    rw [List.nil_append] at b2
    refine ⟨_, m ++ [.function n f a], _, ((Trace.one h1).append (Trace.one h2)).append b1, rfl, b2.push _,
      ⟨⟨s, name, f, .regular, none, s1, a, n⟩, by simp, ⟨rfl, rfl, rfl, rfl⟩,
        List.mem_append_right _ (List.mem_singleton_self _), ?_⟩, ?_, b5, ?_, ?_⟩
    · intro sup' recv' hv'
      obtain ⟨rfl, rfl⟩ := Prod.mk.inj (Option.some.inj (hv.symm.trans hv'))
      exact ⟨⟨s1, n, f, .simpleForSubclasses, some a.rustName, s2, simple, n2⟩, by simp, ⟨rfl, rfl, rfl, rfl⟩, fun sub hs => (b3 sub hs).mono (by simp) (by simp) (by simp)⟩
    · rw [b4, htn2, htn, traitItems_append]; simp [traitItems]
    · intro x hx
      rcases List.mem_append.1 hx with hx | hx
      · exact (b6 x hx).mono (by simp)
      · rw [List.mem_singleton] at hx
        subst hx
        exact FnItem.of ⟨⟨s, name, f, .regular, none, s1, a, n⟩, by simp, rfl, rfl, rfl, rfl⟩
    · intro r hr
      simp only [List.cons_append, List.nil_append, List.mem_cons] at hr
      rcases hr with rfl | rfl | hr
      · exact .inl ⟨rfl, rfl, rfl, rfl⟩
      · exact .inr (.again (r := ⟨s, name, f, .regular, none, s1, a, n⟩) (by simp) hv ⟨rfl, rfl, rfl, rfl⟩)
      · exact .inr ((b7 r hr).mono (by simp))

/-! ### All the functions -/

/-- The item is a function. -/
def Api.isFn {T S F : Type} : Api T S F → Bool
  | .function _ _ _ => true
  | _ => false

/-- The item is kept as it was. -/
def KeptItem (x : PodApi) (y : FnPre1Api) : Prop := x.isFn = false ∧ ∀ ff, y = x.mapAnalysis id id ff

/-- The analyses which follow from the functions of a list. -/
def AskedBy (env : FnEnv) (asks : ApiName → FuncToConvert → Prop) (tr : List FnRun) : Prop :=
  ∀ r ∈ tr, asks r.name r.f ∧ r.soph = .regular ∧ r.pre = none ∨ AskedFor env tr r

theorem AskedBy.append {env : FnEnv} {asks : ApiName → FuncToConvert → Prop} {tr tr' : List FnRun}
    (h : AskedBy env asks tr) (h' : AskedBy env asks tr') : AskedBy env asks (tr ++ tr') := by
  intro r hr
  rcases List.mem_append.1 hr with hr | hr
  · exact (h r hr).imp id fun h => h.mono (by simp)
  · exact (h' r hr).imp id fun h => h.mono (by simp)

theorem AskedBy.imp {env : FnEnv} {asks asks' : ApiName → FuncToConvert → Prop} {tr : List FnRun}
    (h : AskedBy env asks tr) (hi : ∀ n f, asks n f → asks' n f) : AskedBy env asks' tr := by
  intro r hr
  exact (h r hr).imp (fun h => ⟨hi _ _ h.1, h.2⟩) id

/-- A step for an item which is not a function. -/
theorem fnStep_kept {env : FnEnv} {s s' : FnState} {x : PodApi} {out : List FnPre1Api} (hx : x.isFn = false)
    (h : fnStep env s x = .done (s', out)) : s' = s ∧ ∃ y, out = [y] ∧ KeptItem x y := by
  cases x <;> first
    | (cases hx; done)
    | (cases h; exact ⟨rfl, _, rfl, hx, fun _ => rfl⟩)

theorem traitItems_kept {x : PodApi} {y : FnPre1Api} (h : KeptItem x y) (hx : traitItems [x] = []) :
    traitItems [y] = [] := by
  obtain ⟨h1, h2⟩ := h
  cases x with
  | function n f a => cases h1
  | subclassTraitItem n d => cases hx
  | _ => rw [h2 fun _ => {}]; rfl

/-- What comes of a list of items. -/
structure FnStepsMade (env : FnEnv) (s : FnState) (l : List PodApi) (s' : FnState) (out : List FnPre1Api)
    (tr : List FnRun) (m : List FnPre1Api) : Prop where
  trace : Trace env s tr s'
  held : ∀ {v l}, Held v l → Held (v.extend out) (l ++ m)
  fns : ∀ n f u, .function n f u ∈ l → FnMade env n f s'.traitNames tr m
  kept : ∀ x ∈ l, x.isFn = false → ∃ y ∈ m, KeptItem x y
  from_ : ∀ y ∈ m, FnItem env tr y ∨ ∃ x ∈ l, KeptItem x y
  traits : s'.traitNames = s.traitNames ++ traitItems m
  nodup : s'.traitNames.Nodup
  asked : AskedBy env (fun n f => ∃ u, .function n f u ∈ l) tr

theorem fnSteps_made {env : FnEnv} {s s' : FnState} {l : List PodApi} {out : List FnPre1Api}
    (h : fnSteps env s l = .done (s', out)) (hnd : s.traitNames.Nodup) (hl : traitItems l = []) :
    ∃ tr m, FnStepsMade env s l s' out tr m := by
  induction l generalizing s out with
  | nil =>
    cases h
    exact ⟨[], [], .refl _, fun h => by rw [List.append_nil]; exact h, by simp, by simp, by simp, by simp [traitItems],
      hnd, by intro r hr; cases hr⟩
  | cons x l ih =>
    rw [fnSteps] at h
    obtain ⟨⟨s1, out1⟩, h1, h⟩ := PassRun.bind_done.1 h
    obtain ⟨⟨s2, out2⟩, h2, h⟩ := PassRun.bind_done.1 h
    cases h
    have hl' : traitItems [x] ++ traitItems l = [] := by rw [← traitItems_append]; exact hl
    rw [List.append_eq_nil_iff] at hl'
    have one : ∃ tr m, FnStepsMade env s [x] s1 out1 tr m := by
      cases hx : x.isFn with
      | false =>
        obtain ⟨rfl, y, rfl, hy⟩ := fnStep_kept hx h1
        refine ⟨[], [y], .refl _, fun h => h.extend _, ?_, ?_, ?_, ?_, hnd, by intro r hr; cases hr⟩
        · intro n f u hm
          rw [List.mem_singleton] at hm
          subst hm
          cases hx
        · intro z hz _
          rw [List.mem_singleton] at hz
          subst hz
          exact ⟨y, by simp, hy⟩
        · intro z hz
          rw [List.mem_singleton] at hz
          subst hz
          exact .inr ⟨x, by simp, hy⟩
        · rw [traitItems_kept hy hl'.1, List.append_nil]
      | true =>
        cases x with
        | function n f u =>
          obtain ⟨tr, m, v, a1, rfl, a3, a4, a5, a6, a7, a8⟩ := analyzeFnAndSubclasses_made (env := env) h1 hnd
          refine ⟨tr, m, a1, fun h => h.block a3, ?_, ?_, fun y hy => .inl (a7 y hy), a5, a6, ?_⟩
          · intro n' f' u' hm
            rw [List.mem_singleton] at hm
            cases hm
            exact a4
          · intro z hz hf
            rw [List.mem_singleton] at hz
            subst hz
            cases hf
          · intro r hr
            rcases a8 r hr with ⟨b1, b2, b3, b4⟩ | b
            · exact .inl ⟨⟨u, by simp [b1, b2]⟩, b3, b4⟩
            · exact .inr b
        | _ => cases hx
    obtain ⟨tr, m, a⟩ := one
    obtain ⟨tr', m', b⟩ := ih h2 a.nodup hl'.2
    refine ⟨tr ++ tr', m ++ m', a.trace.append b.trace, ?_, ?_, ?_, ?_, ?_, b.nodup, ?_⟩
    · intro v k hk
      have := b.held (a.held hk)
      rw [List.append_assoc] at this
      rw [ApiVec.extend, List.foldl_append]
      exact this
    · intro n f u hm
      rcases List.mem_cons.1 hm with rfl | hm
      · exact (a.fns n f u (by simp)).mono (by rw [b.traits]; simp) (by simp) (by simp)
      · exact (b.fns n f u hm).mono (by simp) (by simp) (by simp)
    · intro z hz hf
      rcases List.mem_cons.1 hz with rfl | hz
      · obtain ⟨y, hy, hk⟩ := a.kept z (by simp) hf
        exact ⟨y, by simp [hy], hk⟩
      · obtain ⟨y, hy, hk⟩ := b.kept z hz hf
        exact ⟨y, by simp [hy], hk⟩
    · intro y hy
      rcases List.mem_append.1 hy with hy | hy
      · rcases a.from_ y hy with h | ⟨z, hz, hk⟩
        · exact .inl (h.mono (by simp))
        · rw [List.mem_singleton] at hz
          subst hz
          exact .inr ⟨z, by simp, hk⟩
      · rcases b.from_ y hy with h | ⟨z, hz, hk⟩
        · exact .inl (h.mono (by simp))
        · exact .inr ⟨z, by simp [hz], hk⟩
    · rw [b.traits, a.traits, traitItems_append, List.append_assoc]
    · refine AskedBy.append (a.asked.imp ?_) (b.asked.imp ?_)
      · rintro n f ⟨u, hu⟩
        rw [List.mem_singleton] at hu
        exact ⟨u, by simp [hu]⟩
      · rintro n f ⟨u, hu⟩
        exact ⟨u, by simp [hu]⟩

/-! ### Special members -/

/-- A special member C++ provides by itself is wanted. -/
def MemberWanted (env : FnEnv) (found : AMap QName ItemsFound) (name : ApiName) (f : FuncToConvert) : Prop :=
  env.conv.cfg.excludeImpls = false ∧ ∃ key i n k, (key, i) ∈ found ∧ i.name = some n ∧ k ∈ membersNeeded i ∧
    env.conv.cfg.isOnConstructorBlocklist key.toCppName = false ∧
    name = specialName env n.name k ∧ f = specialFn env key n.name k

/-- What comes of the special members of a list of classes. -/
structure MembersMade (env : FnEnv) (want : ApiName → FuncToConvert → Prop) (s : FnState)
    (v : ApiVec TypedefAnalysis PodAnalysis FnAnalysis) (s' : FnState)
    (v' : ApiVec TypedefAnalysis PodAnalysis FnAnalysis) (tr : List FnRun) (m : List FnPre1Api) : Prop where
  trace : Trace env s tr s'
  held : ∀ {l}, Held v l → Held v' (l ++ m)
  fns : ∀ n f, want n f → FnMade env n f s'.traitNames tr m
  from_ : ∀ y ∈ m, FnItem env tr y
  traits : s'.traitNames = s.traitNames ++ traitItems m
  nodup : s'.traitNames.Nodup
  asked : AskedBy env want tr

theorem MembersMade.none {env : FnEnv} {want : ApiName → FuncToConvert → Prop} {s : FnState}
    {v : ApiVec TypedefAnalysis PodAnalysis FnAnalysis} (hw : ∀ n f, ¬ want n f) (hnd : s.traitNames.Nodup) :
    MembersMade env want s v s v [] [] :=
  ⟨.refl _, fun h => by rw [List.append_nil]; exact h, fun n f h => absurd h (hw n f), by simp, by simp [traitItems],
    hnd, by intro r hr; cases hr⟩

theorem MembersMade.append {env : FnEnv} {w w' w'' : ApiName → FuncToConvert → Prop} {s s1 s2 : FnState}
    {v v1 v2 : ApiVec TypedefAnalysis PodAnalysis FnAnalysis} {tr tr' : List FnRun} {m m' : List FnPre1Api}
    (a : MembersMade env w s v s1 v1 tr m) (b : MembersMade env w' s1 v1 s2 v2 tr' m')
    (hw : ∀ n f, w'' n f ↔ w n f ∨ w' n f) : MembersMade env w'' s v s2 v2 (tr ++ tr') (m ++ m') := by
  refine ⟨a.trace.append b.trace, ?_, ?_, ?_, ?_, b.nodup, ?_⟩
  · intro l hl
    rw [← List.append_assoc]
    exact b.held (a.held hl)
  · intro n f h
    rcases (hw n f).1 h with h | h
    · exact (a.fns n f h).mono (by rw [b.traits]; simp) (by simp) (by simp)
    · exact (b.fns n f h).mono (by simp) (by simp) (by simp)
  · intro y hy
    rcases List.mem_append.1 hy with hy | hy
    · exact (a.from_ y hy).mono (by simp)
    · exact (b.from_ y hy).mono (by simp)
  · rw [b.traits, a.traits, traitItems_append, List.append_assoc]
  · exact AskedBy.append (a.asked.imp fun n f h => (hw n f).2 (.inl h)) (b.asked.imp fun n f h => (hw n f).2 (.inr h))

theorem synthesizeMembers_made {env : FnEnv} {key : QName} {i : ItemsFound} {ks : List SpecialMemberKind}
    {s s' : FnState} {v v' : ApiVec TypedefAnalysis PodAnalysis FnAnalysis}
    (h : synthesizeMembers env key i s v ks = .done (s', v')) (hnd : s.traitNames.Nodup) :
    ∃ tr m, MembersMade env (fun name f => ∃ n, i.name = some n ∧ ∃ k ∈ ks, name = specialName env n.name k ∧
      f = specialFn env key n.name k) s v s' v' tr m := by
  induction ks generalizing s v with
  | nil => cases h; exact ⟨[], [], .none (by simp) hnd⟩
  | cons k ks ih =>
    rw [synthesizeMembers] at h
    obtain ⟨⟨s1, v1⟩, h1, h⟩ := PassRun.bind_done.1 h
    rw [synthesizeMember.eq_def] at h1
    cases hi : i.name with
    | none => rw [hi] at h1; cases h1
    | some n =>
      rw [hi] at h1
      dsimp only at h1
      obtain ⟨⟨s2, out⟩, h2, h1⟩ := PassRun.bind_done.1 h1
      cases h1
      obtain ⟨tr, m, w, a1, rfl, a3, a4, a5, a6, a7, a8⟩ := analyzeFnAndSubclasses_made h2 hnd
      have a : MembersMade env (fun name f => name = specialName env n.name k ∧ f = specialFn env key n.name k) s v s2
          (v.extend w.apis) tr m := by
        refine ⟨a1, fun h => h.block a3, ?_, a7, a5, a6, ?_⟩
        · rintro _ _ ⟨rfl, rfl⟩; exact a4
        · intro r hr
          rcases a8 r hr with ⟨b1, b2, b3, b4⟩ | b
          · exact .inl ⟨⟨b1, b2⟩, b3, b4⟩
          · exact .inr b
      obtain ⟨tr', m', b⟩ := ih h a6
      refine ⟨_, _, a.append b ?_⟩
      intro name f
      simp only [hi, Option.some.injEq, List.mem_cons, exists_eq_or_imp, exists_eq_left']

theorem synthesizeAll_made {env : FnEnv} {found : AMap QName ItemsFound}
    {s s' : FnState} {v v' : ApiVec TypedefAnalysis PodAnalysis FnAnalysis}
    (h : synthesizeAll env s v found = .done (s', v')) (hnd : s.traitNames.Nodup) :
    ∃ tr m, MembersMade env (MemberWanted env found) s v s' v' tr m := by
  induction found generalizing s v with
  | nil => cases h; exact ⟨[], [], .none (by rintro n f ⟨_, _, _, _, _, h, _⟩; cases h) hnd⟩
  | cons p found ih =>
    obtain ⟨key, i⟩ := p
    rw [synthesizeAll] at h
    obtain ⟨⟨s1, v1⟩, h1, h⟩ := PassRun.bind_done.1 h
    split at h1
    · rename_i hc
      cases h1
      obtain ⟨tr, m, b⟩ := ih h hnd
      refine ⟨_, _, (MembersMade.none (want := fun _ _ => False) (fun _ _ => id) hnd).append b ?_⟩
      intro name f
      simp only [MemberWanted, List.mem_cons, false_or]
      constructor
      · rintro ⟨he, key', i', n, k, hm | hm, h2, h3, h4, h5⟩
        · cases hm; simp [he, h4] at hc
        · exact ⟨he, key', i', n, k, hm, h2, h3, h4, h5⟩
      · rintro ⟨he, key', i', n, k, hm, h2⟩; exact ⟨he, key', i', n, k, .inr hm, h2⟩
    · rename_i hc
      obtain ⟨tr, m, a⟩ := synthesizeMembers_made h1 hnd
      obtain ⟨tr', m', b⟩ := ih h a.nodup
      refine ⟨_, _, a.append b ?_⟩
      simp only [Bool.or_eq_true, not_or, Bool.not_eq_true] at hc
      intro name f
      simp only [MemberWanted, List.mem_cons]
      constructor
      · rintro ⟨he, key', i', n, k, hm | hm, h2, h3, h4, h5⟩
        · cases hm; exact .inl ⟨n, h2, k, h3, h5⟩
        · exact .inr ⟨he, key', i', n, k, hm, h2, h3, h4, h5⟩
      · rintro (⟨n, h2, k, h3, h5⟩ | ⟨he, key', i', n, k, hm, h2⟩)
        · exact ⟨hc.1, key, i, n, k, .inl rfl, h2, h3, hc.2, h5⟩
        · exact ⟨he, key', i', n, k, .inr hm, h2⟩

/-! ### Constructors of subclasses -/

/-- A constructor of a subclass follows from a constructor of its superclass, if that has a destructor anyone can
call. -/
def CtorWanted (env : FnEnv) (apis : List FnPre2Api) (name : ApiName) (g : FuncToConvert) : Prop :=
  ∃ n f a sup, .function n f a ∈ apis ∧ a.kind.constructorOf = some sup ∧ sup ∈ typesWithDestructors apis ∧
    ∃ sub ∈ env.subsOf sup, subclassConstructor sub a sup f = some (g, name)

/-- What comes of the constructors of a list of items. -/
structure CtorsMade (env : FnEnv) (want : ApiName → FuncToConvert → Prop) (s : FnState)
    (v : ApiVec TypedefAnalysis PodAndConstructorAnalysis FnAnalysis) (s' : FnState)
    (v' : ApiVec TypedefAnalysis PodAndConstructorAnalysis FnAnalysis) (tr : List FnRun) (m : List FnPre2Api) :
    Prop where
  trace : Trace env s tr s'
  held : ∀ {l}, Held v l → Held v' (l ++ m)
  fns : ∀ n g, want n g → ∃ r ∈ tr, r.Asks n g .regular none ∧ r.item ∈ m
  from_ : ∀ y ∈ m, ∃ r ∈ tr, y = r.item
  asked : ∀ r ∈ tr, want r.name r.f ∧ r.soph = .regular ∧ r.pre = none

theorem CtorsMade.none {env : FnEnv} {want : ApiName → FuncToConvert → Prop} {s : FnState}
    {v : ApiVec TypedefAnalysis PodAndConstructorAnalysis FnAnalysis} (hw : ∀ n f, ¬ want n f) :
    CtorsMade env want s v s v [] [] :=
  ⟨.refl _, fun h => by rw [List.append_nil]; exact h, fun n f h => absurd h (hw n f), by simp, by simp⟩

theorem CtorsMade.append {env : FnEnv} {w w' w'' : ApiName → FuncToConvert → Prop} {s s1 s2 : FnState}
    {v v1 v2 : ApiVec TypedefAnalysis PodAndConstructorAnalysis FnAnalysis} {tr tr' : List FnRun}
    {m m' : List FnPre2Api} (a : CtorsMade env w s v s1 v1 tr m) (b : CtorsMade env w' s1 v1 s2 v2 tr' m')
    (hw : ∀ n f, w'' n f ↔ w n f ∨ w' n f) : CtorsMade env w'' s v s2 v2 (tr ++ tr') (m ++ m') := by
  refine ⟨a.trace.append b.trace, ?_, ?_, ?_, ?_⟩
  · intro l hl
    rw [← List.append_assoc]
    exact b.held (a.held hl)
  · intro n f h
    rcases (hw n f).1 h with h | h
    · obtain ⟨r, h1, h2, h3⟩ := a.fns n f h
      exact ⟨r, by simp [h1], h2, by simp [h3]⟩
    · obtain ⟨r, h1, h2, h3⟩ := b.fns n f h
      exact ⟨r, by simp [h1], h2, by simp [h3]⟩
  · intro y hy
    rcases List.mem_append.1 hy with hy | hy
    · obtain ⟨r, h1, h2⟩ := a.from_ y hy; exact ⟨r, by simp [h1], h2⟩
    · obtain ⟨r, h1, h2⟩ := b.from_ y hy; exact ⟨r, by simp [h1], h2⟩
  · intro r hr
    rcases List.mem_append.1 hr with hr | hr
    · exact ⟨(hw _ _).2 (.inl (a.asked r hr).1), (a.asked r hr).2⟩
    · exact ⟨(hw _ _).2 (.inr (b.asked r hr).1), (b.asked r hr).2⟩

theorem subclassCtors_made {env : FnEnv} {f : FuncToConvert} {a : FnAnalysis} {sup : QName} {subs : List ApiName}
    {s s' : FnState} {v v' : ApiVec TypedefAnalysis PodAndConstructorAnalysis FnAnalysis}
    (h : subclassCtors env f a sup subs s v = .done (s', v')) :
    ∃ tr m, CtorsMade env (fun name g => ∃ sub ∈ subs, subclassConstructor sub a sup f = some (g, name))
      s v s' v' tr m := by
  induction subs generalizing s v with
  | nil => cases h; exact ⟨[], [], .none (by simp)⟩
  | cons sub subs ih =>
    rw [subclassCtors.eq_def] at h
    dsimp only at h
    split at h
    · cases h
    · rename_i g n hg
      obtain ⟨⟨s1, v1, q⟩, h1, h⟩ := PassRun.bind_done.1 h
      rw [analyzeAndAdd] at h1
      obtain ⟨⟨s2, a2, n2⟩, h2, h1⟩ := PassRun.bind_done.1 h1
      cases h1
      have c : CtorsMade env (fun name g' => name = n ∧ g' = g) s v s1 (v.push (.function n2 g a2))
          [⟨s, n, g, .regular, none, s1, a2, n2⟩] [.function n2 g a2] := by
        refine ⟨.one h2, fun h => h.push _, ?_, ?_, ?_⟩
        · rintro _ _ ⟨rfl, rfl⟩
          exact ⟨_, List.mem_singleton_self _, ⟨rfl, rfl, rfl, rfl⟩, List.mem_singleton_self _⟩
        · intro y hy
          rw [List.mem_singleton] at hy
          subst hy
          exact ⟨_, List.mem_singleton_self _, rfl⟩
        · intro r hr
          rw [List.mem_singleton] at hr
          subst hr
          exact ⟨⟨rfl, rfl⟩, rfl, rfl⟩
      obtain ⟨tr, m, b⟩ := ih h
      refine ⟨_, _, c.append b ?_⟩
      intro name g'
      simp only [List.mem_cons, exists_eq_or_imp, hg, Option.some.injEq, Prod.mk.injEq]
      constructor
      · rintro (⟨rfl, rfl⟩ | h)
        exacts [.inl ⟨rfl, rfl⟩, .inr h]
      · rintro (⟨rfl, rfl⟩ | h)
        exacts [.inl ⟨rfl, rfl⟩, .inr h]

theorem subclassCtorsOf_made {env : FnEnv} {ds : List QName} {l : List FnPre2Api}
    {s s' : FnState} {v v' : ApiVec TypedefAnalysis PodAndConstructorAnalysis FnAnalysis}
    (h : subclassCtorsOf env ds l s v = .done (s', v')) :
    ∃ tr m, CtorsMade env (fun name g => ∃ n f a sup, .function n f a ∈ l ∧ a.kind.constructorOf = some sup ∧ sup ∈ ds ∧
      ∃ sub ∈ env.subsOf sup, subclassConstructor sub a sup f = some (g, name)) s v s' v' tr m := by
  induction l generalizing s v with
  | nil => cases h; exact ⟨[], [], .none (by simp)⟩
  | cons x l ih =>
    have skip : subclassCtorsOf env ds l s v = .done (s', v') →
        (∀ n f a, x = .function n f a → ∀ sup, a.kind.constructorOf = some sup → sup ∉ ds) →
        ∃ tr m, CtorsMade env (fun name g => ∃ n f a sup, .function n f a ∈ x :: l ∧ a.kind.constructorOf = some sup ∧
          sup ∈ ds ∧ ∃ sub ∈ env.subsOf sup, subclassConstructor sub a sup f = some (g, name)) s v s' v' tr m := by
      intro h hx
      obtain ⟨tr, m, b⟩ := ih h
      refine ⟨_, _, (CtorsMade.none (want := fun _ _ => False) (fun _ _ => id)).append b ?_⟩
      intro name g
      simp only [false_or, List.mem_cons]
      constructor
      · rintro ⟨n, f, a, sup, hm | hm, h2, h3, h4⟩
        · exact absurd h3 (hx n f a hm.symm sup h2)
        · exact ⟨n, f, a, sup, hm, h2, h3, h4⟩
      · rintro ⟨n, f, a, sup, hm, h2⟩
        exact ⟨n, f, a, sup, .inr hm, h2⟩
    cases x with
    | function n f a =>
      rw [subclassCtorsOf] at h
      obtain ⟨⟨s1, v1⟩, h1, h⟩ := PassRun.bind_done.1 h
      cases hk : a.kind.constructorOf with
      | none =>
        rw [hk] at h1
        cases h1
        refine skip h ?_
        intro n' f' a' e sup hs
        cases e
        rw [hk] at hs
        cases hs
      | some sup =>
        rw [hk] at h1
        dsimp only at h1
        split at h1
        · rename_i hd
          obtain ⟨tr, m, c⟩ := subclassCtors_made h1
          obtain ⟨tr', m', b⟩ := ih h
          refine ⟨_, _, c.append b ?_⟩
          intro name g
          constructor
          · rintro ⟨n', f', a', sup', hm, h2, h3, h4⟩
            rcases List.mem_cons.1 hm with hm | hm
            · cases hm
              rw [hk] at h2
              cases h2
              exact .inl h4
            · exact .inr ⟨n', f', a', sup', hm, h2, h3, h4⟩
          · rintro (h4 | ⟨n', f', a', sup', hm, h2⟩)
            · exact ⟨n, f, a, sup, by simp, hk, hd, h4⟩
            · exact ⟨n', f', a', sup', by simp [hm], h2⟩
        · rename_i hd
          cases h1
          refine skip h ?_
          intro n' f' a' e sup' hs
          cases e
          rw [hk] at hs
          cases hs
          exact hd
    | _ => exact skip h (by intro _ _ _ e; cases e)

/-! ### The whole pass -/

/-- The constructors noted for a class. -/
def constructorsNoted (found : AMap QName ItemsFound) (q : QName) : PublicConstructors :=
  ((AMap.get? found q).map publicConstructors).getD {}

theorem withConstructors_eq (found : AMap QName ItemsFound) (x : FnPre1Api) :
    withConstructors found x = x.mapAnalysis id (fun a => ⟨a, constructorsNoted found x.name⟩) id := by
  cases x <;> try rfl
  rename_i n d a
  show Api.struct n d _ = Api.struct n d _
  congr 1
  simp only [constructorsNoted, Api.name, Api.nameInfo]
  cases AMap.get? found n.name <;> rfl

/-- An item the converter added, as it is after this pass. Nothing is added but instantiations and markers, which have no
analysis. -/
def asFnItem (x : NullApi) : FnPre2Api := x.mapAnalysis (fun _ => default) (fun _ => default) (fun _ => default)

/-- The stages of function analysis, with the analyses made in each and the items they gave. -/
structure FnPassStages (fuel : Nat) (hash : Config → Nat) (policy : UnsafePolicy) (cfg : Config) (force : Bool)
    (apis : List PodApi) (out : ApiVec TypedefAnalysis PodAndConstructorAnalysis FnAnalysis) where
  env : FnEnv
  s0 : FnState
  s1 : FnState
  s2 : FnState
  s3 : FnState
  /-- The items after the functions were analysed. -/
  v1 : ApiVec TypedefAnalysis PodAnalysis FnAnalysis
  /-- The special members found for each class. -/
  found : AMap QName ItemsFound
  /-- The items after the special members C++ provides were added. -/
  v2 : ApiVec TypedefAnalysis PodAnalysis FnAnalysis
  /-- The constructors of subclasses. -/
  v3 : ApiVec TypedefAnalysis PodAndConstructorAnalysis FnAnalysis
  out1 : List FnPre1Api
  tr1 : List FnRun
  tr2 : List FnRun
  tr3 : List FnRun
  m1 : List FnPre1Api
  m2 : List FnPre1Api
  m3 : List FnPre2Api
  henv : FnEnv.ofApis fuel hash policy cfg force apis = some (env, s0)
  fns : FnStepsMade env s0 apis s1 out1 tr1 m1
  hv1 : v1 = ApiVec.fromIter out1
  hfound : findConstructorsPresent v1.apis = some found
  members : MembersMade env (MemberWanted env found) s1 v1 s2 v2 tr2 m2
  ctors : CtorsMade env (CtorWanted env (v2.apis.map (withConstructors found))) s2 {} s3 v3 tr3 m3
  held : Held out ((m1 ++ m2).map (withConstructors found) ++ m3 ++
    s3.extra.apis.map asFnItem)
  extra : ∀ x ∈ s3.extra.apis, IsInstantiation x ∨ x.IsDup

namespace FnPassStages

variable {fuel : Nat} {hash : Config → Nat} {policy : UnsafePolicy} {cfg : Config} {force : Bool}
  {apis : List PodApi} {out : ApiVec TypedefAnalysis PodAndConstructorAnalysis FnAnalysis}

/-- All the analyses, in order. -/
def runs (p : FnPassStages fuel hash policy cfg force apis out) : List FnRun := p.tr1 ++ p.tr2 ++ p.tr3

/-- All the items made, before names are compared. -/
def made (p : FnPassStages fuel hash policy cfg force apis out) : List FnPre2Api :=
  (p.m1 ++ p.m2).map (withConstructors p.found) ++ p.m3 ++
    p.s3.extra.apis.map asFnItem

theorem trace (p : FnPassStages fuel hash policy cfg force apis out) : Trace p.env p.s0 p.runs p.s3 :=
  (p.fns.trace.append p.members.trace).append p.ctors.trace

end FnPassStages

theorem Trace.extraOk {env : FnEnv} {s s' : FnState} {tr : List FnRun} (h : Trace env s tr s') (hs : s.ExtraOk) :
    s'.ExtraOk := by
  induction h with
  | nil t => exact hs
  | cons e h _ ih =>
    refine ih (analyze_extra h ?_)
    rw [e]
    exact hs

theorem ofApis_start {fuel : Nat} {hash : Config → Nat} {policy : UnsafePolicy} {cfg : Config} {force : Bool}
    {apis : List PodApi} {env : FnEnv} {s : FnState} (h : FnEnv.ofApis fuel hash policy cfg force apis = some (env, s)) :
    s.traitNames = [] ∧ s.extra = {} ∧ s.bridge = {} ∧ s.overloads = {} := by
  rw [FnEnv.ofApis] at h
  simp only [Option.bind_eq_some_iff, Option.map_eq_some_iff] at h
  obtain ⟨p, _, q, _, h⟩ := h
  cases h
  exact ⟨rfl, rfl, rfl, rfl⟩

theorem isIgnored_mapAnalysis {T S F T' S' F' : Type} (ft : T → T') (fs : S → S') (ff : F → F') (a : Api T S F) :
    (a.mapAnalysis ft fs ff).isIgnored = a.isIgnored := by
  cases a <;> rfl

theorem withConstructors_name (found : AMap QName ItemsFound) (x : FnPre1Api) :
    (withConstructors found x).name = x.name := by
  rw [withConstructors_eq]; exact Api.mapAnalysis_name _ _ _ _

theorem withConstructors_isDup (found : AMap QName ItemsFound) (x : FnPre1Api) (h : x.IsDup) :
    (withConstructors found x).IsDup := by
  rw [withConstructors_eq]; exact h.map _ _ _

/-- A pass which ends went through its stages. -/
theorem pass_stages {fuel : Nat} {hash : Config → Nat} {policy : UnsafePolicy} {cfg : Config} {force : Bool}
    {apis : ApiVec TypedefAnalysis PodAnalysis Unit} {out : ApiVec TypedefAnalysis PodAndConstructorAnalysis FnAnalysis}
    (h : analyzeFunctions fuel hash policy cfg force apis = .done out) (hl : traitItems apis.apis = []) :
    Nonempty (FnPassStages fuel hash policy cfg force apis.apis out) := by
  rw [analyzeFunctions.eq_def] at h
  split at h
  · cases h
  · rename_i env s0 henv
    obtain ⟨ht0, he0, _⟩ := ofApis_start henv
    obtain ⟨⟨s1, out1⟩, h1, h⟩ := PassRun.bind_done.1 h
    obtain ⟨⟨s2, w2⟩, h2, h⟩ := PassRun.bind_done.1 h
    obtain ⟨⟨s3, w3⟩, h3, h⟩ := PassRun.bind_done.1 h
    obtain ⟨e, h4, h⟩ := PassRun.bind_done.1 h
    cases h
    obtain ⟨tr1, m1, a⟩ := fnSteps_made h1 (by rw [ht0]; exact List.nodup_nil) hl
    rw [addConstructorsPresent.eq_def] at h2
    split at h2
    · cases h2
    · rename_i found hf
      obtain ⟨⟨s2', v2⟩, h5, h2⟩ := PassRun.bind_done.1 h2
      cases h2
      obtain ⟨tr2, m2, b⟩ := synthesizeAll_made h5 a.nodup
      rw [addSubclassConstructors] at h3
      obtain ⟨⟨s3', v3⟩, h6, h3⟩ := PassRun.bind_done.1 h3
      cases h3
      have hh1 : Held (ApiVec.fromIter out1) m1 := a.held Held.empty
      have hh2 := b.held hh1
      have hap : (ApiVec.fromIter (v2.apis.map (withConstructors found))).apis = v2.apis.map (withConstructors found) := by
        apply fromIter_apis
        rw [List.map_map]
        have : ((fun x : FnPre2Api => x.name) ∘ withConstructors found) = fun x => x.name :=
          funext (withConstructors_name found)
        rw [this]
        exact hh2.inv.1
      rw [hap] at h6
      obtain ⟨tr3, m3, c⟩ := subclassCtorsOf_made h6
      have hh3 := (hh2.map (withConstructors found) (withConstructors_name found) (withConstructors_isDup found)).block
        (c.held Held.empty)
      rw [List.nil_append] at hh3
      have hx : s3.ExtraOk := by
        refine Trace.extraOk ((a.trace.append b.trace).append c.trace) ?_
        rw [FnState.ExtraOk, he0]
        exact ⟨ApiVec.inv_empty, by simp⟩
      have h4' := addAnalyses_ok (T := TypedefAnalysis) (S := PodAndConstructorAnalysis) (F := FnAnalysis) (fun _ => default)
        (fun _ => default) (fun _ => default) s3.extra.apis hx.2
      rw [h4'] at h4
      cases h4
      exact ⟨⟨env, s0, s1, s2, s3, _, found, v2, v3, out1, tr1, tr2, tr3, m1, m2, m3, henv, a, rfl, hf, b, c,
        hh3.extend _, hx.2⟩⟩

/-! ### Nothing is lost and nothing comes from nowhere -/

section
variable {fuel : Nat} {hash : Config → Nat} {policy : UnsafePolicy} {cfg : Config} {force : Bool}
  {apis : List PodApi} {out : ApiVec TypedefAnalysis PodAndConstructorAnalysis FnAnalysis}

/-- An item made by the pass is in its output. If other items were made under the same name there may be a marker in
its place, or one of the others; but the name is there. -/
def Reported (p : FnPassStages fuel hash policy cfg force apis out) (x : FnPre2Api) : Prop :=
  (∃ y ∈ out.apis, y.name = x.name) ∧ ((p.made.filter fun y => y.name = x.name) = [x] → x ∈ out.apis)

theorem reported_of_made (p : FnPassStages fuel hash policy cfg force apis out) {x : FnPre2Api} (h : x ∈ p.made) :
    Reported p x :=
  ⟨p.held.named x h, p.held.kept x⟩

theorem made_of_m1 (p : FnPassStages fuel hash policy cfg force apis out) {x : FnPre1Api} (h : x ∈ p.m1) :
    withConstructors p.found x ∈ p.made := by
  rw [FnPassStages.made]
  simp only [List.mem_append, List.mem_map]
  exact .inl (.inl ⟨x, .inl h, rfl⟩)

theorem made_of_m2 (p : FnPassStages fuel hash policy cfg force apis out) {x : FnPre1Api} (h : x ∈ p.m2) :
    withConstructors p.found x ∈ p.made := by
  rw [FnPassStages.made]
  simp only [List.mem_append, List.mem_map]
  exact .inl (.inl ⟨x, .inr h, rfl⟩)

theorem made_of_m3 (p : FnPassStages fuel hash policy cfg force apis out) {x : FnPre2Api} (h : x ∈ p.m3) :
    x ∈ p.made := by
  rw [FnPassStages.made]
  simp only [List.mem_append]
  exact .inl (.inr h)

/-- **C04, function analysis (items other than functions)**: every item which is not a function is passed on as it was,
a class with its constructors noted. -/
theorem items_reported (p : FnPassStages fuel hash policy cfg force apis out) {x : PodApi} (hx : x ∈ apis)
    (hf : x.isFn = false) :
    Reported p (x.mapAnalysis id (fun a => ⟨a, constructorsNoted p.found x.name⟩) fun _ => {}) := by
  obtain ⟨y, hy, _, h⟩ := p.fns.kept x hx hf
  have := reported_of_made p (made_of_m1 p hy)
  rw [h fun _ => {}, withConstructors_eq] at this
  have e : (x.mapAnalysis id id fun _ => ({} : FnAnalysis)).mapAnalysis id
      (fun a => (⟨a, constructorsNoted p.found (x.mapAnalysis id id fun _ => ({} : FnAnalysis)).name⟩ :
        PodAndConstructorAnalysis)) id =
      x.mapAnalysis id (fun a => ⟨a, constructorsNoted p.found x.name⟩) fun _ => {} := by
    cases x <;> rfl
  rw [e] at this
  exact this

/-- **C04, function analysis (functions)**: every function is analysed, in the order of the pass, and what comes of the
analysis is reported under the name the analysis gave. -/
theorem functions_reported (p : FnPassStages fuel hash policy cfg force apis out) {n : ApiName} {f : FuncToConvert}
    {u : Unit} (hx : .function n f u ∈ apis) :
    ∃ r ∈ p.runs, r.Ok p.env ∧ r.Asks n f .regular none ∧ Reported p (.function r.n f r.a) := by
  obtain ⟨r, hr, ha, hi, _⟩ := p.fns.fns n f u hx
  have hr' : r ∈ p.runs := by simp [FnPassStages.runs, hr]
  refine ⟨r, hr', p.trace.ok r hr', ha, ?_⟩
  have := reported_of_made p (made_of_m1 p hi)
  rw [← ha.2.1]
  exact this

/-- **C30 (overrides)**: for every virtual method and every subclass Rust code defines of its class there is an override,
and unless the method is pure virtual also a function with which Rust code reaches the method of the superclass. The
override depends on both, and on the trait item. -/
theorem overrides_reported (p : FnPassStages fuel hash policy cfg force apis out) {n : ApiName} {f : FuncToConvert}
    {u : Unit} (hx : .function n f u ∈ apis) :
    ∃ r ∈ p.runs, r.Ok p.env ∧ r.Asks n f .regular none ∧
      ∀ sup recv, r.a.kind.virtualOf = some (sup, recv) → ∀ sub ∈ p.env.subsOf sup,
        ∃ r2 ∈ p.runs, r2.Ok p.env ∧ r2.Asks r.n f .simpleForSubclasses (some r.a.rustName) ∧
          (∃ t d, t.name = traitApiName sup r.a.rustName ∧ Reported p (.subclassTraitItem t d)) ∧
          ((r2.a.kind.isPure = true ∧ Reported p (withConstructors p.found (subclassFunction p.env.policy sub r2.a r.n recv
              sup [traitApiName sup r.a.rustName]))) ∨
           (r2.a.kind.isPure = false ∧ ∃ r3 ∈ p.runs, r3.Ok p.env ∧
              r3.Asks (ApiName.ofQName (superFnName [] r.a.cxxbridgeName))
                (superFnWrapper sub (superFnName [] r.a.rustName) f) .simpleForSubclasses none ∧
              Reported p r3.item ∧
              Reported p (withConstructors p.found (subclassFunction p.env.policy sub r2.a r.n recv sup
                [traitApiName sup r.a.rustName, r3.n.name])))) := by
  obtain ⟨r, hr, ha, _, hv⟩ := p.fns.fns n f u hx
  have sub1 : ∀ {r}, r ∈ p.tr1 → r ∈ p.runs := fun h => by simp [FnPassStages.runs, h]
  refine ⟨r, sub1 hr, p.trace.ok r (sub1 hr), ha, ?_⟩
  intro sup recv hk sub hs
  obtain ⟨r2, hr2, ha2, ho⟩ := hv sup recv hk
  obtain ⟨ht, deps, hd, hc⟩ := ho sub hs
  refine ⟨r2, sub1 hr2, p.trace.ok r2 (sub1 hr2), ha2, ?_, ?_⟩
  · rw [p.fns.traits, (ofApis_start p.henv).1, List.nil_append, traitItems, List.mem_filterMap] at ht
    obtain ⟨y, hy, e⟩ := ht
    have := reported_of_made p (made_of_m1 p hy)
    cases y with
    | subclassTraitItem t d => exact ⟨t, d, Option.some.inj e, this⟩
    | _ => cases e
  · rcases hc with ⟨hp, rfl⟩ | ⟨hp, r3, hr3, ha3, hi3, rfl⟩
    · exact .inl ⟨hp, reported_of_made p (made_of_m1 p hd)⟩
    · refine .inr ⟨hp, r3, sub1 hr3, p.trace.ok r3 (sub1 hr3), ?_, reported_of_made p (made_of_m1 p hi3),
        reported_of_made p (made_of_m1 p hd)⟩
      rw [← ha.2.1]; exact ha3

/-- **C13, C45 (special members C++ provides)**: for every class found to need one, a special member is analysed and
reported. -/
theorem members_reported (p : FnPassStages fuel hash policy cfg force apis out) {n : ApiName} {f : FuncToConvert}
    (hw : MemberWanted p.env p.found n f) :
    ∃ r ∈ p.runs, r.Ok p.env ∧ r.Asks n f .regular none ∧ Reported p r.item := by
  obtain ⟨r, hr, ha, hi, _⟩ := p.members.fns n f hw
  have hr' : r ∈ p.runs := by simp [FnPassStages.runs, hr]
  exact ⟨r, hr', p.trace.ok r hr', ha, reported_of_made p (made_of_m2 p hi)⟩

/-- **C30 (constructors)**: for every constructor of a superclass whose destructor anyone can call, each subclass has a
constructor. -/
theorem ctors_reported (p : FnPassStages fuel hash policy cfg force apis out) {n : ApiName} {f : FuncToConvert}
    (hw : CtorWanted p.env (p.v2.apis.map (withConstructors p.found)) n f) :
    ∃ r ∈ p.runs, r.Ok p.env ∧ r.Asks n f .regular none ∧ Reported p r.item := by
  obtain ⟨r, hr, ha, hi⟩ := p.ctors.fns n f hw
  have hr' : r ∈ p.runs := by simp [FnPassStages.runs, hr]
  exact ⟨r, hr', p.trace.ok r hr', ha, reported_of_made p (made_of_m3 p hi)⟩

/-- Where an item after function analysis comes from. -/
inductive FnOrigin (p : FnPassStages fuel hash policy cfg force apis out) : FnPre2Api → Prop
  | kept {x : PodApi} (h : x ∈ apis) (hf : x.isFn = false) : FnOrigin p
      (x.mapAnalysis id (fun a => ⟨a, constructorsNoted p.found x.name⟩) fun _ => {})
  | fn {r : FnRun} (h : r ∈ p.runs) (hp : r.pre = none) : FnOrigin p r.item
  | override_ {r r2 : FnRun} (h : r ∈ p.runs) (h2 : r2 ∈ p.runs) {sup : QName} {recv : ReceiverMutability}
      (hv : r.a.kind.virtualOf = some (sup, recv)) {sub : ApiName} (hs : sub ∈ p.env.subsOf sup) (deps : List QName)
      (ha : r2.Asks r.n r.f .simpleForSubclasses (some r.a.rustName)) (hd : traitApiName sup r.a.rustName ∈ deps) :
      FnOrigin p (withConstructors p.found (subclassFunction p.env.policy sub r2.a r.n recv sup deps))
  | trait_ {r r2 : FnRun} (h : r ∈ p.runs) (h2 : r2 ∈ p.runs) {sup : QName} {recv : ReceiverMutability}
      (hv : r.a.kind.virtualOf = some (sup, recv)) {sub : ApiName} (hs : sub ∈ p.env.subsOf sup)
      (ha : r2.Asks r.n r.f .simpleForSubclasses (some r.a.rustName)) :
      FnOrigin p (withConstructors p.found (subclassTraitItem p.env.policy (traitApiName sup r.a.rustName) r2.a recv sup
        r2.a.kind.isPure))
  | inst (id : Ident) (rs : Ty) (cpp : String) : FnOrigin p (.concreteType ⟨⟨[], id⟩, none⟩ (some rs) cpp)
  | marker {x : FnPre2Api} (h : x.IsDup) : FnOrigin p x

/-- Why a function was analysed. -/
inductive FnReason (p : FnPassStages fuel hash policy cfg force apis out) (r : FnRun) : Prop
  | declared {u : Unit} (h : .function r.name r.f u ∈ apis)
  | member (h : MemberWanted p.env p.found r.name r.f)
  | subclassCtor (h : CtorWanted p.env (p.v2.apis.map (withConstructors p.found)) r.name r.f)
  | virtual_ (h : AskedFor p.env p.runs r)

/-- **C04, function analysis (nothing comes from nowhere)**. -/
theorem items_from (p : FnPassStages fuel hash policy cfg force apis out) {y : FnPre2Api} (hy : y ∈ out.apis) :
    FnOrigin p y := by
  have sub1 : p.tr1 ⊆ p.runs := fun _ h => by simp [FnPassStages.runs, h]
  have sub2 : p.tr2 ⊆ p.runs := fun _ h => by simp [FnPassStages.runs, h]
  have sub3 : p.tr3 ⊆ p.runs := fun _ h => by simp [FnPassStages.runs, h]
  have item : ∀ x, FnItem p.env p.runs x → FnOrigin p (withConstructors p.found x) := by
    intro x hx
    cases hx with
    | fn h hp => exact .fn h hp
    | override_ h h2 hv hs deps ha hd => exact .override_ h h2 hv hs deps ha hd
    | trait_ h h2 hv hs ha => exact .trait_ h h2 hv hs ha
  rcases p.held.from_ y hy with h | ⟨h, _⟩
  · simp only [List.mem_append, List.mem_map] at h
    rcases h with (⟨x, hx | hx, rfl⟩ | hx) | ⟨x, hx, rfl⟩
    · rcases p.fns.from_ x hx with h | ⟨z, hz, hf, h⟩
      · exact item x (h.mono sub1)
      · have := FnOrigin.kept (p := p) hz hf
        rw [h fun _ => {}]
        have e : withConstructors p.found (z.mapAnalysis id id fun _ => ({} : FnAnalysis)) =
            z.mapAnalysis id (fun a => ⟨a, constructorsNoted p.found z.name⟩) fun _ => {} := by
          rw [withConstructors_eq]
          cases z <;> rfl
        rw [e]
        exact this
    · exact item x ((p.members.from_ x hx).mono sub2)
    · obtain ⟨r, hr, rfl⟩ := p.ctors.from_ y hx
      exact .fn (sub3 hr) (p.ctors.asked r hr).2.2
    · rcases p.extra x hx with ⟨id, rs, cpp, rfl⟩ | hi
      · exact .inst id rs cpp
      · refine .marker ?_
        exact hi.map _ _ _
  · exact .marker h

/-- Every analysis was made for a reason. -/
theorem runs_for (p : FnPassStages fuel hash policy cfg force apis out) {r : FnRun} (hr : r ∈ p.runs) :
    FnReason p r := by
  have sub1 : p.tr1 ⊆ p.runs := fun _ h => by simp [FnPassStages.runs, h]
  have sub2 : p.tr2 ⊆ p.runs := fun _ h => by simp [FnPassStages.runs, h]
  rw [FnPassStages.runs, List.mem_append, List.mem_append] at hr
  rcases hr with (hr | hr) | hr
  · rcases p.fns.asked r hr with ⟨⟨u, h⟩, _⟩ | h
    · exact .declared h
    · exact .virtual_ (h.mono sub1)
  · rcases p.members.asked r hr with ⟨h, _⟩ | h
    · exact .member h
    · exact .virtual_ (h.mono sub2)
  · exact .subclassCtor (p.ctors.asked r hr).1

/-- Items of subclasses' traits are made once each. -/
theorem trait_items_once (p : FnPassStages fuel hash policy cfg force apis out) : (traitItems p.made).Nodup := by
  have hw : ∀ l : List FnPre1Api, traitItems (l.map (withConstructors p.found)) = traitItems l := by
    intro l
    rw [traitItems, List.filterMap_map]
    refine List.filterMap_congr fun x _ => ?_
    rw [Function.comp, withConstructors_eq]
    cases x <;> rfl
  have h3 : traitItems p.m3 = [] := by
    rw [traitItems, List.filterMap_eq_nil_iff]
    intro y hy
    obtain ⟨r, _, rfl⟩ := p.ctors.from_ y hy
    rfl
  have hx : traitItems (p.s3.extra.apis.map asFnItem) = [] := by
    rw [traitItems, List.filterMap_eq_nil_iff]
    intro y hy
    obtain ⟨x, hx, rfl⟩ := List.mem_map.1 hy
    rcases p.extra x hx with ⟨id, rs, cpp, rfl⟩ | hi
    · rfl
    · cases x <;> first | rfl | cases hi
  have : traitItems p.made = p.s2.traitNames := by
    rw [FnPassStages.made, traitItems_append, traitItems_append, hw, h3, hx, List.append_nil, List.append_nil,
      traitItems_append, p.members.traits, p.fns.traits, (ofApis_start p.henv).1, List.nil_append]
  rw [this]
  exact p.members.nodup

end

/-! ### Names in the bridge -/

/-- The names the tracker gave out in a pass. -/
def givenNames (tr : List FnRun) : List String :=
  tr.map fun r => (r.s.bridge.getName (bridgeRequest r.name r.a)).2

theorem Trace.given {env : FnEnv} {s s' : FnState} {tr : List FnRun} (h : Trace env s tr s') :
    givenNames tr = s.bridge.run (tr.map fun r => bridgeRequest r.name r.a) := by
  induction h with
  | nil => rfl
  | cons e h _ ih =>
    rename_i s s' r tr _
    have hb : r.s.bridge = s.bridge := by rw [e]
    rw [givenNames, List.map_cons, List.map_cons, BridgeNameTracker.run, ← hb]
    congr 1
    rw [← (analyze_bridge h).1]
    exact ih

/-- The text which ends the name of every wrapper. -/
def wrapperEnd (env : FnEnv) : String := "_" ++ "0x" ++ String.ofList (Nat.toDigits 16 (env.hash env.conv.cfg))

theorem wrapperName_eq (env : FnEnv) (g : String) :
    ∃ u, (u = "" ∧ endsWithU g = true ∨ u = "_") ∧ wrapperName env g = g ++ u ++ "autocxx_wrapper" ++ wrapperEnd env := by
  rw [wrapperName, uniquify, wrapperEnd]
  cases h : endsWithU g
  · exact ⟨"_", .inr rfl, by simp only [Bool.false_eq_true, if_false, String.append_assoc]⟩
  · exact ⟨"", .inl ⟨rfl, rfl⟩, by simp only [if_true, String.append_assoc]⟩

theorem append_right_inj' {a b c : String} (h : a ++ c = b ++ c) : a = b := by
  have := congrArg String.toList h
  simp only [String.toList_append, List.append_cancel_right_eq] at this
  exact String.toList_inj.1 this

theorem nodup_map_of {α β γ : Type} {f : α → β} {g : α → γ} {l : List α} (h : (l.map f).Nodup)
    (hk : ∀ a ∈ l, ∀ b ∈ l, g a = g b → f a = f b) : (l.map g).Nodup := by
  induction l with
  | nil => exact List.nodup_nil
  | cons a l ih =>
    rw [List.map_cons, List.nodup_cons] at h ⊢
    refine ⟨?_, ih h.2 fun x hx y hy => hk x (by simp [hx]) y (by simp [hy])⟩
    intro hm
    obtain ⟨b, hb, e⟩ := List.mem_map.1 hm
    exact h.1 (List.mem_map.2 ⟨b, hb, hk b (by simp [hb]) a (by simp) e⟩)

/-- **C09 in a pass (partial)**: the functions analysed in a pass get pairwise distinct names in the bridge, if none is
called `…autocxx` with a number, none of the names looks like that of a wrapper, and no two of them differ in an
underscore at the end only. -/
theorem bridge_names_in_pass_partial {env : FnEnv} {s s' : FnState} {tr : List FnRun} (h : Trace env s tr s')
    (hs : s.bridge = []) (hn : ∀ r ∈ tr, NoAutocxxNumber (bridgeRequest r.name r.a))
    (hw : ∀ g ∈ givenNames tr, ∀ x, g ≠ x ++ wrapperEnd env)
    (hu : ∀ g ∈ givenNames tr, g ++ "_" ∉ givenNames tr) :
    (tr.map fun r => r.a.cxxbridgeName).Nodup := by
  have hg : (givenNames tr).Nodup := by
    rw [h.given, hs]
    refine bridge_names_distinct_partial _ ?_
    intro q hq
    obtain ⟨r, hr, rfl⟩ := List.mem_map.1 hq
    exact hn r hr
  have key : ∀ r ∈ tr, ∀ r' ∈ tr, r.a.cxxbridgeName = r'.a.cxxbridgeName →
      (r.s.bridge.getName (bridgeRequest r.name r.a)).2 = (r'.s.bridge.getName (bridgeRequest r'.name r'.a)).2 := by
    intro r hr r' hr' e
    have m := List.mem_map_of_mem (f := fun r : FnRun => (r.s.bridge.getName (bridgeRequest r.name r.a)).2) hr
    have m' := List.mem_map_of_mem (f := fun r : FnRun => (r.s.bridge.getName (bridgeRequest r.name r.a)).2) hr'
    have n1 := analyze_bridgeName (h.ok r hr)
    have n2 := analyze_bridgeName (h.ok r' hr')
    have m1 := hw _ m
    have m2 := hw _ m'
    have u1 := hu _ m
    have u2 := hu _ m'
    generalize (r.s.bridge.getName (bridgeRequest r.name r.a)).2 = g at *
    generalize (r'.s.bridge.getName (bridgeRequest r'.name r'.a)).2 = g' at *
    rw [n1, n2] at e
    obtain ⟨v, hv, w1⟩ := wrapperName_eq env g
    obtain ⟨v', hv', w2⟩ := wrapperName_eq env g'
    split at e <;> split at e
    · rw [w1, w2] at e
      have e := append_right_inj' (append_right_inj' e)
      rcases hv with ⟨rfl, _⟩ | rfl <;> rcases hv' with ⟨rfl, _⟩ | rfl
      · simpa using e
      · have e : g = g' ++ "_" := by simpa using e
        exact absurd (e ▸ m) u2
      · have e : g ++ "_" = g' := by simpa using e
        exact absurd (e ▸ m') u1
      · exact append_right_inj' e
    · rw [w1] at e
      exact absurd e.symm (m2 _)
    · rw [w2] at e
      exact absurd e (m1 _)
    · exact e
  rw [givenNames] at hg
  exact nodup_map_of hg key

end Verif
