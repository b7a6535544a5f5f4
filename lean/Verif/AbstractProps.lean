import Verif.Abstract
import Verif.ApiVecProps
import Verif.DepthFirstProps
import Verif.Util

/-!
# C12: abstract classes are recognised and never constructed
-/

set_option autoImplicit false

namespace Verif

/-! ## Specification -/

/-- The types of the ordinary arguments. -/
def argTypes : List FnArg → List Ty
  | [] => []
  | .typed _ t :: l => t :: argTypes l
  | .receiver _ :: l => argTypes l

/-- The signature of a method: its C++ name, the types of its parameters other than `this`, and whether
it is const. -/
def HasSignature (n : ApiName) (params : List FnArg) (c : ReceiverMutability) (s : Signature) : Prop :=
  s.name = n.cppName.getD n.name.name ∧ s.args = argTypes params.tail ∧ s.constness = c

/-- The class declares a pure virtual method with that signature. -/
def DeclaresPure (apis : List FnPre2Api) (cls : QName) (s : Signature) : Prop :=
  ∃ n f a c, Api.function n f a ∈ apis ∧ a.kind = .method (.pureVirtual c) cls ∧
    HasSignature n a.params c s

/-- The class declares a virtual method with that signature which is not pure. -/
def Defines (apis : List FnPre2Api) (cls : QName) (s : Signature) : Prop :=
  ∃ n f a c, Api.function n f a ∈ apis ∧ a.kind = .method (.virtual c) cls ∧
    HasSignature n a.params c s

/-- An analysed class with these direct bases. -/
def IsClass (apis : List FnPre2Api) (cls : QName) (bases : List QName) : Prop :=
  ∃ n d a, Api.struct n d a ∈ apis ∧ n.name = cls ∧ (a.pod.kind = .pod ∨ a.pod.kind = .nonPod) ∧
    a.pod.bases = bases

/-- The class declares or inherits a pure virtual method with that signature, and neither the class
nor a class on the way overrides it. Of a class which was not analysed only its own declarations are
known. -/
inductive Unresolved (apis : List FnPre2Api) : QName → Signature → Prop
  | unanalysed {cls : QName} {s : Signature} (h : ∀ bases, ¬ IsClass apis cls bases)
      (hp : DeclaresPure apis cls s) : Unresolved apis cls s
  | own {cls : QName} {bases : List QName} {s : Signature} (h : IsClass apis cls bases)
      (hp : DeclaresPure apis cls s) (hd : ¬ Defines apis cls s) : Unresolved apis cls s
  | inherited {cls b : QName} {bases : List QName} {s : Signature} (h : IsClass apis cls bases)
      (hb : b ∈ bases) (hu : Unresolved apis b s) (hd : ¬ Defines apis cls s) : Unresolved apis cls s

/-- An abstract class. -/
def IsAbstract (apis : List FnPre2Api) (cls : QName) : Prop :=
  (∃ bases, IsClass apis cls bases) ∧ ∃ s, Unresolved apis cls s

/-- A constructor of the class: an ordinary one, or a copy or move constructor. -/
def IsConstructorOf (a : FnPre2Api) (cls : QName) : Prop :=
  ∃ n f an, a = .function n f an ∧
    ((∃ d, an.kind = .method (.constructor d) cls) ∨
      ∃ k r, an.kind = .traitMethod k cls r ∧ (k = .copyConstructor ∨ k = .moveConstructor))

/-! ## Collecting virtual methods -/

theorem signature_new_iff (n : ApiName) (params : List FnArg) (c : ReceiverMutability) (s : Signature) :
    s = Signature.new n params c ↔ HasSignature n params c s := by
  have e : ∀ l : List FnArg, (l.filterMap fun p => match p with
      | .typed _ ty => some ty
      | .receiver _ => none) = argTypes l := by
    intro l
    induction l with
    | nil => rfl
    | cons a l ih => cases a <;> simp [argTypes, ih]
  obtain ⟨sn, sa, sc⟩ := s
  simp only [Signature.new, HasSignature, ApiName.effectiveCppName, List.drop_one,
    Signature.mk.injEq]
  rw [← e params.tail]
  exact Iff.rfl

theorem getD_insert (m : ClassStates) (k q : QName) (v : ClassAbstractState) :
    ClassStates.getD (m.insert k v) q = if k = q then v else m.getD q := by
  unfold ClassStates.getD
  rw [AMap.get?_insert]
  split <;> rfl

theorem collect_spec (l : List FnPre2Api) (m : ClassStates) (c : QName) (s : Signature) :
    (s ∈ (ClassStates.getD (l.foldl collectVirtual m) c).undefined ↔
      s ∈ (m.getD c).undefined ∨ DeclaresPure l c s) ∧
    (s ∈ (ClassStates.getD (l.foldl collectVirtual m) c).defined ↔
      s ∈ (m.getD c).defined ∨ Defines l c s) := by
  induction l generalizing m with
  | nil => simp [DeclaresPure, Defines]
  | cons a l ih =>
    obtain ⟨ih1, ih2⟩ := ih (collectVirtual m a)
    rw [List.foldl_cons, ih1, ih2]
    have hp : DeclaresPure (a :: l) c s ↔ DeclaresPure [a] c s ∨ DeclaresPure l c s := by
      constructor
      · rintro ⟨n, f, an, cc, hm, h⟩
        rcases List.mem_cons.1 hm with e | hm
        · exact .inl ⟨n, f, an, cc, by simp [e], h⟩
        · exact .inr ⟨n, f, an, cc, hm, h⟩
      · rintro (⟨n, f, an, cc, hm, h⟩ | ⟨n, f, an, cc, hm, h⟩)
        · exact ⟨n, f, an, cc, by simp at hm; simp [hm], h⟩
        · exact ⟨n, f, an, cc, by simp [hm], h⟩
    have hd : Defines (a :: l) c s ↔ Defines [a] c s ∨ Defines l c s := by
      constructor
      · rintro ⟨n, f, an, cc, hm, h⟩
        rcases List.mem_cons.1 hm with e | hm
        · exact .inl ⟨n, f, an, cc, by simp [e], h⟩
        · exact .inr ⟨n, f, an, cc, hm, h⟩
      · rintro (⟨n, f, an, cc, hm, h⟩ | ⟨n, f, an, cc, hm, h⟩)
        · exact ⟨n, f, an, cc, by simp at hm; simp [hm], h⟩
        · exact ⟨n, f, an, cc, by simp [hm], h⟩
    rw [hp, hd, ← or_assoc, ← or_assoc]
    have key : (s ∈ (ClassStates.getD (collectVirtual m a) c).undefined ↔
        s ∈ (m.getD c).undefined ∨ DeclaresPure [a] c s) ∧
      (s ∈ (ClassStates.getD (collectVirtual m a) c).defined ↔
        s ∈ (m.getD c).defined ∨ Defines [a] c s) := by
      have other : collectVirtual m a = m → (∀ n f an cc, a = .function n f an →
          an.kind ≠ .method (.pureVirtual cc) c ∧ an.kind ≠ .method (.virtual cc) c) →
          (s ∈ (ClassStates.getD (collectVirtual m a) c).undefined ↔
            s ∈ (m.getD c).undefined ∨ DeclaresPure [a] c s) ∧
          (s ∈ (ClassStates.getD (collectVirtual m a) c).defined ↔
            s ∈ (m.getD c).defined ∨ Defines [a] c s) := by
        intro he h
        have h1 : ¬ DeclaresPure [a] c s := by
          rintro ⟨n, f, an, cc, hm, hk, _⟩
          exact (h n f an cc (List.mem_singleton.1 hm).symm).1 hk
        have h2 : ¬ Defines [a] c s := by
          rintro ⟨n, f, an, cc, hm, hk, _⟩
          exact (h n f an cc (List.mem_singleton.1 hm).symm).2 hk
        rw [he]; simp [h1, h2]
      cases a with
      | function n f an =>
        by_cases h1 : ∃ cc cls, an.kind = .method (.pureVirtual cc) cls
        · obtain ⟨cc, cls, hk⟩ := h1
          have hP : DeclaresPure [.function n f an] c s ↔ cls = c ∧ HasSignature n an.params cc s := by
            constructor
            · rintro ⟨n', f', an', cc', hm, hk', hs⟩
              cases List.mem_singleton.1 hm
              rw [hk] at hk'; cases hk'; exact ⟨rfl, hs⟩
            · rintro ⟨rfl, hs⟩; exact ⟨n, f, an, cc, by simp, hk, hs⟩
          have hD : ¬ Defines [.function n f an] c s := by
            rintro ⟨n', f', an', cc', hm, hk', hs⟩
            cases List.mem_singleton.1 hm
            rw [hk] at hk'; cases hk'
          simp only [collectVirtual, hk, getD_insert, hP, ← signature_new_iff]
          by_cases e : cls = c
          · subst e; simp [hD, or_comm]
          · simp [e, hD]
        · by_cases h2 : ∃ cc cls, an.kind = .method (.virtual cc) cls
          · obtain ⟨cc, cls, hk⟩ := h2
            have hP : Defines [.function n f an] c s ↔ cls = c ∧ HasSignature n an.params cc s := by
              constructor
              · rintro ⟨n', f', an', cc', hm, hk', hs⟩
                cases List.mem_singleton.1 hm
                rw [hk] at hk'; cases hk'; exact ⟨rfl, hs⟩
              · rintro ⟨rfl, hs⟩; exact ⟨n, f, an, cc, by simp, hk, hs⟩
            have hD : ¬ DeclaresPure [.function n f an] c s := by
              rintro ⟨n', f', an', cc', hm, hk', hs⟩
              cases List.mem_singleton.1 hm
              rw [hk] at hk'; cases hk'
            simp only [collectVirtual, hk, getD_insert, hP, ← signature_new_iff]
            by_cases e : cls = c
            · subst e; simp [hD, or_comm]
            · simp [e, hD]
          · apply other
            · unfold collectVirtual
              split
              · rename_i heq; cases heq
                split
                · rename_i hk; exact absurd ⟨_, _, hk⟩ h1
                · rename_i hk; exact absurd ⟨_, _, hk⟩ h2
                · rfl
              · rename_i hne; exact (hne _ _ _ rfl).elim
            · rintro n' f' an' cc e
              cases e
              exact ⟨fun hk => h1 ⟨_, _, hk⟩, fun hk => h2 ⟨_, _, hk⟩⟩
      | _ => exact other rfl (by intro _ _ _ _ e; cases e)
    rw [key.1, key.2]
    exact ⟨Iff.rfl, Iff.rfl⟩


/-! ## Resolving classes -/

/-- What the states must be once exactly the classes in `done` have been resolved. -/
structure ResolveInv (apis : List FnPre2Api) (done : List FnPre2Api) (st : ClassStates × List QName) :
    Prop where
  defined : ∀ c s, s ∈ (st.1.getD c).defined ↔ Defines apis c s
  resolved : ∀ a ∈ done, ∀ bases, IsClass apis a.name bases → ∀ s,
    s ∈ (st.1.getD a.name).undefined ↔ Unresolved apis a.name s
  raw : ∀ c, (∀ bases, ¬ IsClass apis c bases) ∨ (∀ a ∈ done, a.name ≠ c) → ∀ s,
    s ∈ (st.1.getD c).undefined ↔ DeclaresPure apis c s
  abs : ∀ c, c ∈ st.2 ↔ (∃ a ∈ done, a.name = c) ∧ IsAbstract apis c

theorem abs_mem_setInsert {α : Type} [DecidableEq α] (l : List α) (a b : α) :
    b ∈ setInsert l a ↔ b ∈ l ∨ b = a := by
  unfold setInsert; split
  · constructor
    · exact .inl
    · rintro (h | rfl) <;> assumption
  · simp

theorem isClass_unique {apis : List FnPre2Api} (hn : (apis.map (·.name)).Nodup) {n : ApiName}
    {d : StructDetails} {a : PodAndConstructorAnalysis} (hm : Api.struct n d a ∈ apis)
    {bases : List QName} (h : IsClass apis n.name bases) :
    (a.pod.kind = .pod ∨ a.pod.kind = .nonPod) ∧ a.pod.bases = bases := by
  obtain ⟨n', d', a', hm', e, hk, hb⟩ := h
  have : (Api.struct n d a : FnPre2Api) = .struct n' d' a' := by
    have uniq : ∀ (l : List FnPre2Api), (l.map (·.name)).Nodup → ∀ x ∈ l, ∀ y ∈ l,
        x.name = y.name → x = y := by
      intro l
      induction l with
      | nil => simp
      | cons c l ih =>
        intro hn x hx y hy e
        rw [List.map_cons, List.nodup_cons] at hn
        rcases List.mem_cons.1 hx with hx | hx <;> rcases List.mem_cons.1 hy with hy | hy
        · rw [hx, hy]
        · rw [hx] at e; exact absurd (List.mem_map.2 ⟨y, hy, e.symm⟩) hn.1
        · rw [hy] at e; exact absurd (List.mem_map.2 ⟨x, hx, e⟩) hn.1
        · exact ih hn.2 x hx y hy e
    exact uniq apis hn _ hm _ hm' e.symm
  cases this
  exact ⟨hk, hb⟩

theorem resolveStep_inv (apis : List FnPre2Api) (hn : (apis.map (·.name)).Nodup)
    (done : List FnPre2Api) (a : FnPre2Api) (ha : a ∈ apis) (hfresh : ∀ b ∈ done, b.name ≠ a.name)
    (hdeps : ∀ b ∈ apis, b.name ∈ FnPre2Api.fieldAndBaseDeps a → ∃ c ∈ done, c.name = b.name)
    (st : ClassStates × List QName) (hi : ResolveInv apis done st) :
    ResolveInv apis (done ++ [a]) (resolveStep st a) := by
  by_cases hs : ∃ n d an, a = .struct n d an ∧ (an.pod.kind = .pod ∨ an.pod.kind = .nonPod)
  · obtain ⟨n, d, an, rfl, hk⟩ := hs
    have hcls : IsClass apis n.name an.pod.bases := ⟨n, d, an, ha, rfl, hk, rfl⟩
    have hund : ∀ s, s ∈ (resolveClass st.1 n.name an.pod.bases).undefined ↔
        Unresolved apis n.name s := by
      intro s
      simp only [resolveClass, List.mem_filter, List.mem_append, List.mem_flatMap,
        hi.defined, decide_not, Bool.not_eq_true', decide_eq_false_iff_not]
      rw [hi.raw n.name (.inr fun b hb => hfresh b hb) s]
      have hb : ∀ b ∈ an.pod.bases, (s ∈ (match st.1.get? b with
          | some s => s.undefined
          | none => []) ↔ Unresolved apis b s) := by
        intro b hb
        have e : (match st.1.get? b with
          | some s => s.undefined
          | none => []) = (st.1.getD b).undefined := by
          unfold ClassStates.getD; cases st.1.get? b <;> rfl
        rw [e]
        by_cases hc : ∃ bases, IsClass apis b bases
        · obtain ⟨bases, hc⟩ := hc
          obtain ⟨n', d', an', hm', hn', _⟩ := id hc
          obtain ⟨x, hx, hxn⟩ := hdeps _ hm' (by
            rw [show (Api.struct n' d' an' : FnPre2Api).name = n'.name from rfl, hn']
            simp [FnPre2Api.fieldAndBaseDeps, hb])
          have hxb : x.name = b := hxn.trans hn'
          have := hi.resolved x hx bases (by rw [hxb]; exact hc) s
          rw [hxb] at this; exact this
        · rw [hi.raw b (.inl fun bases h => hc ⟨bases, h⟩) s]
          constructor
          · exact fun h => .unanalysed (fun bases h => hc ⟨bases, h⟩) h
          · intro h
            cases h with
            | unanalysed _ hp => exact hp
            | own h => exact absurd ⟨_, h⟩ hc
            | inherited h => exact absurd ⟨_, h⟩ hc
      constructor
      · rintro ⟨hp | ⟨b, hbm, hbs⟩, hd⟩
        · exact .own hcls hp hd
        · exact .inherited hcls hbm ((hb b hbm).1 hbs) hd
      · intro h
        cases h with
        | unanalysed h => exact absurd hcls (h _)
        | own _ hp hd => exact ⟨.inl hp, hd⟩
        | inherited h hbm hu hd =>
          have := (isClass_unique hn ha h).2
          subst this
          exact ⟨.inr ⟨_, hbm, (hb _ hbm).2 hu⟩, hd⟩
    simp only [resolveStep, hk, if_true]
    refine ⟨?_, ?_, ?_, ?_⟩
    · intro c s
      rw [getD_insert]
      split
      · rename_i e; subst e; exact hi.defined n.name s
      · exact hi.defined c s
    · intro b hb bases hc s
      rw [getD_insert]
      split
      · rename_i e; rw [← e]; exact hund s
      · rename_i e
        rcases List.mem_append.1 hb with hb | hb
        · exact hi.resolved b hb bases hc s
        · simp at hb; subst hb; exact absurd rfl e
    · intro c hc s
      have hne : n.name ≠ c := by
        rcases hc with hc | hc
        · rintro rfl; exact hc _ hcls
        · exact hc (.struct n d an) (by simp)
      rw [getD_insert, if_neg hne]
      exact hi.raw c (hc.imp id fun h b hb => h b (by simp [hb])) s
    · intro c
      have hab : IsAbstract apis n.name ↔
          ¬ (resolveClass st.1 n.name an.pod.bases).undefined.isEmpty = true := by
        rw [List.isEmpty_iff]
        constructor
        · rintro ⟨_, s, hs⟩ he
          have := (hund s).2 hs
          rw [he] at this; cases this
        · intro he
          obtain ⟨s, hs⟩ := List.exists_mem_of_ne_nil _ he
          exact ⟨⟨_, hcls⟩, s, (hund s).1 hs⟩
      split
      · rename_i he
        have hna : ¬ IsAbstract apis n.name := fun h => hab.1 h he
        rw [hi.abs c]
        constructor
        · rintro ⟨⟨b, hb, e⟩, h⟩; exact ⟨⟨b, by simp [hb], e⟩, h⟩
        · rintro ⟨⟨b, hb, e⟩, h⟩
          refine ⟨?_, h⟩
          rcases List.mem_append.1 hb with hb | hb
          · exact ⟨b, hb, e⟩
          · simp at hb; subst hb
            have e : n.name = c := e
            subst e; exact absurd h hna
      · rename_i he
        have ha' : IsAbstract apis n.name := hab.2 he
        rw [abs_mem_setInsert, hi.abs c]
        constructor
        · rintro (⟨⟨b, hb, e⟩, h⟩ | rfl)
          · exact ⟨⟨b, by simp [hb], e⟩, h⟩
          · exact ⟨⟨.struct n d an, List.mem_append_right _ (by simp), rfl⟩, ha'⟩
        · rintro ⟨⟨b, hb, e⟩, h⟩
          rcases List.mem_append.1 hb with hb | hb
          · exact .inl ⟨⟨b, hb, e⟩, h⟩
          · simp at hb; subst hb; exact .inr e.symm
  · have hstep : resolveStep st a = st := by
      unfold resolveStep
      split
      · rename_i n d an
        split
        · rename_i hk; exact absurd ⟨n, d, an, rfl, hk⟩ hs
        · rfl
      · rfl
    have hnc : ∀ bases, ¬ IsClass apis a.name bases := by
      rintro bases ⟨n', d', an', hm', e, hk, _⟩
      cases a with
      | struct n d an =>
        have := isClass_unique hn ha (bases := an'.pod.bases) ⟨n', d', an', hm', e, hk, rfl⟩
        exact hs ⟨n, d, an, rfl, this.1⟩
      | _ =>
        have uniq : ∀ (l : List FnPre2Api), (l.map (·.name)).Nodup → ∀ x ∈ l, ∀ y ∈ l,
            x.name = y.name → x = y := by
          intro l
          induction l with
          | nil => simp
          | cons c l ih =>
            intro hn x hx y hy e
            rw [List.map_cons, List.nodup_cons] at hn
            rcases List.mem_cons.1 hx with hx | hx <;> rcases List.mem_cons.1 hy with hy | hy
            · rw [hx, hy]
            · rw [hx] at e; exact absurd (List.mem_map.2 ⟨y, hy, e.symm⟩) hn.1
            · rw [hy] at e; exact absurd (List.mem_map.2 ⟨x, hx, e⟩) hn.1
            · exact ih hn.2 x hx y hy e
        have := uniq apis hn _ ha _ hm' e.symm
        cases this
    rw [hstep]
    refine ⟨hi.defined, ?_, ?_, ?_⟩
    · intro b hb bases hc s
      rcases List.mem_append.1 hb with hb | hb
      · exact hi.resolved b hb bases hc s
      · simp at hb; subst hb; exact absurd hc (hnc bases)
    · intro c hc s
      exact hi.raw c (hc.imp id fun h b hb => h b (by simp [hb])) s
    · intro c
      rw [hi.abs c]
      constructor
      · rintro ⟨⟨b, hb, e⟩, h⟩; exact ⟨⟨b, by simp [hb], e⟩, h⟩
      · rintro ⟨⟨b, hb, e⟩, h⟩
        refine ⟨?_, h⟩
        rcases List.mem_append.1 hb with hb | hb
        · exact ⟨b, hb, e⟩
        · simp at hb; subst hb
          subst e
          obtain ⟨⟨bases, hc⟩, _⟩ := h
          exact absurd hc (hnc bases)

theorem resolve_foldl_inv (apis : List FnPre2Api) (hn : (apis.map (·.name)).Nodup)
    (out : List FnPre2Api) (hperm : out.Perm apis)
    (hord : DepOrdered Api.name FnPre2Api.fieldAndBaseDeps apis out) (k : Nat) :
    ∀ p s st, p.length = k → out = p ++ s →
      ResolveInv apis [] st → ResolveInv apis p (p.foldl resolveStep st) := by
  induction k with
  | zero =>
    intro p s st hl e hi
    have := List.length_eq_zero_iff.1 hl
    subst this; exact hi
  | succ k ih =>
    intro p s st hl e hi
    rcases List.eq_nil_or_concat p with rfl | ⟨p', a, rfl⟩
    · cases hl
    rw [List.concat_eq_append] at *
    have e' : out = p' ++ a :: s := by rw [e]; simp
    rw [List.foldl_append]
    have hnout : (out.map (·.name)).Nodup := (hperm.map _).nodup_iff.2 hn
    refine resolveStep_inv apis hn p' a (hperm.subset (by rw [e']; simp)) ?_ ?_ _
      (ih p' (a :: s) st (by simpa using hl) e' hi)
    · intro b hb hbe
      rw [e', List.map_append, List.map_cons, List.nodup_append] at hnout
      exact hnout.2.2 _ (List.mem_map.2 ⟨b, hb, rfl⟩) _ (by simp) hbe
    · intro b hb hd
      exact hord p' a s e' b hb hd

/-- The classes found to be abstract are exactly the abstract ones; the analysis gives up exactly when
some items contain or derive from each other in a circle. -/
theorem abstract_classes_spec (apis : List FnPre2Api) (hn : (apis.map (·.name)).Nodup) :
    (∃ abs, abstractClasses apis = some abs ∧ ∀ c, c ∈ abs ↔ IsAbstract apis c) ∨
    (abstractClasses apis = none ∧
      ∃ S : List FnPre2Api, (∀ a ∈ S, a ∈ apis) ∧ Stuck Api.name FnPre2Api.fieldAndBaseDeps S) := by
  unfold abstractClasses
  rcases fields_and_bases_first_spec Api.name FnPre2Api.fieldAndBaseDeps apis hn with
    ⟨out, h, hperm, hord⟩ | ⟨out, rest, h, hperm, hst⟩
  · left
    rw [h]
    refine ⟨_, rfl, ?_⟩
    have h0 : ResolveInv apis [] (apis.foldl collectVirtual [], []) := by
      refine ⟨?_, by simp, ?_, by simp⟩
      · intro c s
        rw [(collect_spec apis [] c s).2]
        simp [ClassStates.getD]
      · intro c _ s
        rw [(collect_spec apis [] c s).1]
        simp [ClassStates.getD]
    have := resolve_foldl_inv apis hn out hperm hord out.length out [] _ rfl (by simp) h0
    intro c
    rw [this.abs c]
    constructor
    · exact fun h => h.2
    · intro h
      refine ⟨?_, h⟩
      obtain ⟨⟨bases, n, d, a, hm, e, _⟩, _⟩ := h
      exact ⟨_, hperm.symm.subset hm, e⟩
  · right
    rw [h]
    exact ⟨rfl, rest, fun a ha => hperm.subset (by simp [ha]), hst⟩


/-! ## What becomes of the items -/

/-- The C++ name of the item is that of a type nested in another type. -/
def IsNested (n : ApiName) : Prop := ∃ c, n.cppName = some c ∧ "::".toList <:+: c.toList

/-- What becomes of an item which is kept. -/
inductive AbstractFate (apis : List FnPre2Api) : FnPre2Api → FnPre2Api → Prop
  | marked {n : ApiName} {d : StructDetails} {a : PodAndConstructorAnalysis}
      (h : IsAbstract apis n.name) (hn : ¬ IsNested n) :
      AbstractFate apis (.struct n d a) (.struct n d { a with pod := { a.pod with kind := .abstract } })
  | nested {n : ApiName} {d : StructDetails} {a : PodAndConstructorAnalysis}
      (h : IsAbstract apis n.name) (hn : IsNested n) :
      AbstractFate apis (.struct n d a)
        (.ignoredItem n .abstractNestedType (some (ErrorContext.newForItem n.name.name)))
  | unchanged {a : FnPre2Api} (h : ¬ IsAbstract apis a.name) : AbstractFate apis a a

theorem isNested_iff (n : ApiName) :
    ((n.cppName.map cppNameIsNested).getD false) = true ↔ IsNested n := by
  unfold IsNested cppNameIsNested
  cases n.cppName with
  | none => simp
  | some c => simp [containsStr_iff]

theorem isAbstractConstructor_iff (abs : List QName) (a : FnPre2Api) :
    isAbstractConstructor abs a = true ↔ ∃ cls ∈ abs, IsConstructorOf a cls := by
  unfold IsConstructorOf
  constructor
  · intro h
    unfold isAbstractConstructor at h
    split at h
    · rename_i n f an
      split at h
      · rename_i d self hk
        exact ⟨self, by simpa using h, n, f, an, rfl, .inl ⟨d, hk⟩⟩
      · rename_i self r hk
        exact ⟨self, by simpa using h, n, f, an, rfl, .inr ⟨_, r, hk, .inl rfl⟩⟩
      · rename_i self r hk
        exact ⟨self, by simpa using h, n, f, an, rfl, .inr ⟨_, r, hk, .inr rfl⟩⟩
      · cases h
    · cases h
  · rintro ⟨cls, hc, n, f, an, rfl, ⟨d, hk⟩ | ⟨k, r, hk, rfl | rfl⟩⟩ <;>
      simp [isAbstractConstructor, hk, hc]

theorem markAbstract_name (abs : List QName) (a : FnPre2Api) : (markAbstract abs a).name = a.name := by
  unfold markAbstract
  split
  · split <;> rfl
  · rfl

theorem rejectNested_oneForOne : OneForOne rejectNestedAbstract := by
  intro a l h
  unfold rejectNestedAbstract at h
  split at h
  · split at h
    · cases h
    · cases h; exact ⟨_, rfl, rfl⟩
  · cases h; exact ⟨_, rfl, rfl⟩

theorem All2.of_map {α β : Type} {R : α → β → Prop} (l : List α) (f : α → β)
    (h : ∀ a ∈ l, R a (f a)) : All2 R l (l.map f) := by
  induction l with
  | nil => exact .nil
  | cons a l ih => exact .cons (h a (by simp)) (ih fun b hb => h b (by simp [hb]))

/-- **C12**: for every collection of items (with at most one item per name, none of its types being
already marked), either the analysis succeeds, and then: the constructors of abstract classes are
dropped, and nothing else is; each remaining item stays in its place; a class which declares or inherits
a pure virtual method that is not overridden is marked abstract, or, when it is nested in another
class, is replaced by a marker with the reason; everything else is unchanged. Or some of the
items contain or derive from each other in a circle, which is the only case in which the analysis gives
up. What counts as a pure virtual method is limited to methods other than destructors: see
`abstract_destructor_false`. -/
theorem abstract_classes_partial (apis : ApiVec TypedefAnalysis PodAndConstructorAnalysis FnAnalysis)
    (hi : apis.Inv)
    (h0 : ∀ n d a, Api.struct n d a ∈ apis.apis → a.pod.kind ≠ .abstract) :
    (∃ r, markTypesAbstract apis = some r ∧ r.Inv ∧
      ∃ keep : FnPre2Api → Bool,
        (∀ a, keep a = false ↔ ∃ cls, IsAbstract apis.apis cls ∧ IsConstructorOf a cls) ∧
        All2 (AbstractFate apis.apis) (apis.apis.filter keep) r.apis) ∨
    (markTypesAbstract apis = none ∧ ∃ S : List FnPre2Api, (∀ a ∈ S, a ∈ apis.apis) ∧
      Stuck Api.name FnPre2Api.fieldAndBaseDeps S) := by
  rcases abstract_classes_spec apis.apis hi.1 with ⟨abs, he, habs⟩ | ⟨he, S, hS⟩
  · left
    unfold markTypesAbstract
    rw [he]
    refine ⟨_, rfl, ApiVec.extend_inv ApiVec.inv_empty _, fun a => !isAbstractConstructor abs a, ?_, ?_⟩
    · intro a
      simp only [Bool.not_eq_false', isAbstractConstructor_iff, habs]
    · have hmn : (apis.apis.map (markAbstract abs)).map (·.name) = apis.apis.map (·.name) := by
        rw [List.map_map]
        exact List.map_congr_left fun a _ => markAbstract_name abs a
      have hmark : (ApiVec.fromIter (apis.apis.map (markAbstract abs))).apis =
          apis.apis.map (markAbstract abs) := by
        unfold ApiVec.fromIter
        rw [extend_fresh_apis _ ApiVec.inv_empty]
        · simp
        · simp only [ApiVec.nameList, List.map_nil, List.nil_append]
          rw [hmn]; exact hi.1
      have hinv : (ApiVec.fromIter (apis.apis.map (markAbstract abs))).Inv :=
        ApiVec.extend_inv ApiVec.inv_empty _
      rw [convert_item_apis_one_for_one _ rejectNested_oneForOne _ (ApiVec.retain_inv hinv _)]
      simp only [ApiVec.retain, hmark]
      have hf : ∀ l : List FnPre2Api, (l.map (markAbstract abs)).filter
          (fun a => !isAbstractConstructor abs a) =
          (l.filter fun a => !isAbstractConstructor abs a).map (markAbstract abs) := by
        intro l
        induction l with
        | nil => rfl
        | cons a l ih =>
          have : isAbstractConstructor abs (markAbstract abs a) = isAbstractConstructor abs a := by
            unfold markAbstract
            split
            · split <;> rfl
            · rfl
          simp only [List.map_cons, List.filter_cons, this, ih]
          split <;> rfl
      rw [hf, List.map_map]
      apply All2.of_map
      intro a ha
      have ha := (List.mem_filter.1 ha).1
      simp only [Function.comp_apply]
      by_cases hA : IsAbstract apis.apis a.name
      · obtain ⟨⟨bases, n', d', an', hm', e, hk, hb⟩, _⟩ := id hA
        have : ApiVec.get? apis a.name = some a := (ApiVec.get?_some_iff hi _ _).2 ⟨ha, rfl⟩
        have h2 : ApiVec.get? apis a.name = some (.struct n' d' an') :=
          (ApiVec.get?_some_iff hi _ _).2 ⟨hm', e⟩
        rw [this] at h2
        cases h2
        have hin : n'.name ∈ abs := (habs _).2 hA
        unfold outcome markAbstract
        simp only [hin, if_true]
        by_cases hnest : IsNested n'
        · have := (isNested_iff n').2 hnest
          simp only [rejectNestedAbstract, this, and_self, if_true]
          exact .nested hA hnest
        · have : ¬ ((n'.cppName.map cppNameIsNested).getD false) = true :=
            fun h => hnest ((isNested_iff n').1 h)
          simp only [rejectNestedAbstract, this, and_false]
          exact .marked hA hnest
      · have hnin : a.name ∉ abs := fun h => hA ((habs _).1 h)
        have hm : markAbstract abs a = a := by
          unfold markAbstract
          split
          · exact if_neg hnin
          · rfl
        have ho : outcome rejectNestedAbstract a = a := by
          unfold outcome rejectNestedAbstract
          cases a with
          | struct n d an =>
            have := h0 n d an ha
            simp [this]
          | _ => rfl
        rw [hm, ho]
        exact .unchanged hA
  · right
    unfold markTypesAbstract
    rw [he]
    exact ⟨rfl, S, hS⟩

/-- **C12 (nothing constructs an abstract class)**: after a successful analysis no constructor, copy
constructor or move constructor of an abstract class is left, and no such class is left unmarked. -/
theorem abstract_never_constructed
    (apis r : ApiVec TypedefAnalysis PodAndConstructorAnalysis FnAnalysis) (hi : apis.Inv)
    (h0 : ∀ n d a, Api.struct n d a ∈ apis.apis → a.pod.kind ≠ .abstract)
    (hr : markTypesAbstract apis = some r) (cls : QName) (hc : IsAbstract apis.apis cls) :
    (∀ a ∈ r.apis, ¬ IsConstructorOf a cls) ∧
    ∀ n d a, Api.struct n d a ∈ r.apis → n.name = cls → a.pod.kind = .abstract := by
  rcases abstract_classes_partial apis hi h0 with ⟨r', hr', _, keep, hk, h2⟩ | ⟨hn, _⟩
  · rw [hr] at hr'; cases hr'
    constructor
    · intro b hb hcon
      obtain ⟨a, ha, hf⟩ := h2.right hb
      cases hf with
      | marked => obtain ⟨_, _, _, h, _⟩ := hcon; cases h
      | nested => obtain ⟨_, _, _, h, _⟩ := hcon; cases h
      | unchanged h =>
        have := (List.mem_filter.1 ha).2
        rw [(hk b).2 ⟨cls, hc, hcon⟩] at this
        cases this
    · rintro n d a hb rfl
      obtain ⟨x, hx, hf⟩ := h2.right hb
      generalize hy : (Api.struct n d a : FnPre2Api) = y at hf
      cases hf with
      | marked => cases hy; rfl
      | nested => cases hy
      | unchanged h => subst hy; exact absurd hc h
  · rw [hr] at hn; cases hn

/-! ## A class, an abstract base and an override -/

/-- `class B { virtual void f() = 0; }; class D : B { void f() override; }; class E : B {};` with a
constructor for each. -/
def abstractExample : List FnPre2Api :=
  [.struct ⟨⟨[], "E"⟩, none⟩ {} { pod := { bases := [⟨[], "B"⟩] } },
   .struct ⟨⟨[], "D"⟩, none⟩ {} { pod := { bases := [⟨[], "B"⟩] } },
   .struct ⟨⟨[], "B"⟩, none⟩ {} {},
   .function ⟨⟨[], "B_f"⟩, some "f"⟩ {}
     { params := [.receiver (.other "B")], kind := .method (.pureVirtual .mutable) ⟨[], "B"⟩ },
   .function ⟨⟨[], "D_f"⟩, some "f"⟩ {}
     { params := [.receiver (.other "D")], kind := .method (.virtual .mutable) ⟨[], "D"⟩ },
   .function ⟨⟨[], "D_new"⟩, none⟩ {} { kind := .method (.constructor true) ⟨[], "D"⟩ },
   .function ⟨⟨[], "E_new"⟩, none⟩ {} { kind := .method (.constructor true) ⟨[], "E"⟩ }]

/-- The hypotheses of the theorems are met by the example, in which `B` and `E` are abstract and `D`
is not. -/
example : (ApiVec.fromIter abstractExample).Inv ∧
    (ApiVec.fromIter abstractExample).apis = abstractExample ∧
    (∀ n d a, Api.struct n d a ∈ abstractExample → a.pod.kind ≠ .abstract) ∧
    IsAbstract abstractExample ⟨[], "E"⟩ ∧ ¬ IsAbstract abstractExample ⟨[], "D"⟩ := by
  have hB : Unresolved abstractExample ⟨[], "B"⟩ ⟨"f", [], .mutable⟩ := by
    refine .own (bases := []) ⟨⟨⟨[], "B"⟩, none⟩, {}, {}, by simp [abstractExample], rfl, by simp, rfl⟩
      ⟨_, _, _, _, .tail _ (.tail _ (.tail _ (.head _))), rfl, rfl, rfl, rfl⟩ ?_
    rintro ⟨n, f, a, c, hm, hk, _⟩
    simp [abstractExample] at hm
    rcases hm with ⟨-, -, rfl⟩ | ⟨-, -, rfl⟩ | ⟨-, -, rfl⟩ | ⟨-, -, rfl⟩ <;> simp at hk
  refine ⟨ApiVec.extend_inv ApiVec.inv_empty _, by rfl, ?_, ⟨⟨_, ⟨⟨⟨[], "E"⟩, none⟩, {}, _, .head _, rfl, by simp, rfl⟩⟩, ⟨"f", [], .mutable⟩, ?_⟩, ?_⟩
  · intro n d a hm
    simp [abstractExample] at hm
    rcases hm with ⟨-, -, rfl⟩ | ⟨-, -, rfl⟩ | ⟨-, -, rfl⟩ <;> simp
  · refine .inherited ⟨⟨⟨[], "E"⟩, none⟩, {}, _, .head _, rfl, by simp, rfl⟩ (List.mem_singleton.2 rfl) hB ?_
    rintro ⟨n, f, a, c, hm, hk, _⟩
    simp [abstractExample] at hm
    rcases hm with ⟨-, -, rfl⟩ | ⟨-, -, rfl⟩ | ⟨-, -, rfl⟩ | ⟨-, -, rfl⟩ <;> simp at hk
  · have hn : (abstractExample.map (·.name)).Nodup := by decide
    rcases abstract_classes_spec abstractExample hn with ⟨abs, he, h⟩ | ⟨he, _⟩
    · rw [← h]
      have : abstractClasses abstractExample = some [⟨[], "B"⟩, ⟨[], "E"⟩] := by decide +kernel
      rw [this] at he; cases he; decide
    · have : abstractClasses abstractExample = some [⟨[], "B"⟩, ⟨[], "E"⟩] := by decide +kernel
      rw [this] at he; cases he

/-- C12 fails for destructors: a class whose only pure virtual function is its destructor is abstract in
C++, but the destructor is a trait method to the analysis, so the class is not marked and its
constructor is kept. -/
theorem abstract_destructor_false :
    ∃ apis : ApiVec TypedefAnalysis PodAndConstructorAnalysis FnAnalysis, apis.Inv ∧
      (∃ n f a r, Api.function n f a ∈ apis.apis ∧ f.virtualness = some .pureVirtual ∧
        a.kind = .traitMethod .destructor ⟨[], "A"⟩ r) ∧
      ∃ r, markTypesAbstract apis = some r ∧
        (∃ n d a, Api.struct n d a ∈ r.apis ∧ n.name = ⟨[], "A"⟩ ∧ a.pod.kind = .nonPod) ∧
        ∃ a ∈ r.apis, IsConstructorOf a ⟨[], "A"⟩ := by
  let s : FnPre2Api := .struct ⟨⟨[], "A"⟩, none⟩ {} {}
  let dt : FnPre2Api := .function ⟨⟨[], "A_destructor"⟩, none⟩ { virtualness := some .pureVirtual }
    { kind := .traitMethod .destructor ⟨[], "A"⟩ {} }
  let c : FnPre2Api := .function ⟨⟨[], "A_new"⟩, none⟩ {} { kind := .method (.constructor true) ⟨[], "A"⟩ }
  refine ⟨ApiVec.fromIter [s, dt, c], ApiVec.extend_inv ApiVec.inv_empty _,
    ⟨_, _, _, _, .tail _ (.head _), rfl, rfl⟩, ApiVec.fromIter [s, dt, c], ?_,
    ⟨_, _, _, .head _, rfl, rfl⟩, c, .tail _ (.tail _ (.head _)), _, _, _, rfl, .inl ⟨_, rfl⟩⟩
  have : abstractClasses (ApiVec.fromIter [s, dt, c]).apis = some [] := by decide +kernel
  unfold markTypesAbstract
  rw [this]
  rfl

/-! ## Functions which are to be ignored -/

/-- What becomes of an item when functions which cannot be generated are discarded. -/
inductive DiscardFate : FnApi → FnApi → Prop
  | discarded {n : ApiName} {f : FuncToConvert} {a : FnAnalysis} {e : ErrWithCtx}
      (h : a.ignoreReason = some e) : DiscardFate (.function n f a) (.ignoredItem n e.err e.ctx)
  | kept {n : ApiName} {f : FuncToConvert} {a : FnAnalysis} (h : a.ignoreReason = none) :
      DiscardFate (.function n f a) (.function n f a)
  | other {a : FnApi} (h : ∀ n f an, a ≠ .function n f an) : DiscardFate a a

/-- **C04 (ignored functions)**: each function with a reason to be ignored is replaced, in its place, by
a marker carrying exactly that reason; every other item is unchanged. -/
theorem discard_ignored_functions_spec (apis : ApiVec TypedefAnalysis PodAndDepAnalysis FnAnalysis)
    (hi : apis.Inv) : All2 DiscardFate apis.apis (discardIgnoredFunctions apis).apis := by
  let g : FnApi → FnApi := fun a => match a with
    | .function n f an => match an.ignoreReason with
      | some e => .ignoredItem n e.err e.ctx
      | none => .function n f an
    | a => a
  have hg : ∀ a, (g a).name = a.name := by
    intro a
    simp only [g]
    split
    · split <;> rfl
    · rfl
  have hflat : ∀ (c : Conversions Unit TypedefAnalysis PodAndDepAnalysis FnAnalysis
        TypedefAnalysis PodAndDepAnalysis FnAnalysis) (l : List FnApi),
      (∀ a, apiOrError a.nameInfo (convertApi c () a).2 = [g a]) →
      (flatMapM (fun s a => ((convertApi c s a).1, apiOrError a.nameInfo (convertApi c s a).2)) () l).2 =
        l.map g := by
    intro c l hc
    induction l with
    | nil => rfl
    | cons a l ih =>
      rw [flatMapM]
      simp only [List.map_cons]
      rw [hc]
      exact congrArg (g a :: ·) ih
  have hl : (discardIgnoredFunctions apis).apis = apis.apis.map g := by
    unfold discardIgnoredFunctions convertApis
    simp only
    rw [hflat]
    · rw [extend_fresh_apis _ ApiVec.inv_empty]
      · simp
      · simp only [ApiVec.nameList, List.map_nil, List.nil_append]
        have : (apis.apis.map g).map (·.name) = apis.apis.map (·.name) := by
          rw [List.map_map]
          exact List.map_congr_left fun a _ => hg a
        rw [this]; exact hi.1
    · intro a
      cases a with
      | function n f an =>
        simp only [convertApi, g]
        cases an.ignoreReason <;> rfl
      | _ => rfl
  rw [hl]
  apply All2.of_map
  intro a _
  cases a with
  | function n f an =>
    simp only [g]
    cases h : an.ignoreReason with
    | none => exact .kept h
    | some e => exact .discarded h
  | _ => exact .other (by intro _ _ _ h; cases h)

end Verif
