import Verif.CppSubProps

/-!
# Which C++ is generated

C27: the C++ generator provides what the analysis says is needed.
-/

set_option autoImplicit false

namespace Verif

theorem Outcome.bind_assoc {α β γ : Type} (o : Outcome α) (f : α → Outcome β) (g : β → Outcome γ) :
    (o.bind f).bind g = o.bind fun a => (f a).bind g := by cases o <;> rfl

theorem Outcome.bind_pure {α : Type} (o : Outcome α) : (o.bind .ok) = o := by cases o <;> rfl

/-! ## What is made for a list of items -/

/-- The C++ made for an item by itself. A subclass is made later; a method of a subclass is made with the subclass. -/
inductive MadeAlone (m : CppNameMap) (makestring : String) : FnApi → List ExtraCpp → Prop
  | string {n : ApiName} : MadeAlone m makestring (.stringConstructor n) [stringConstructor makestring]
  | function {n : ApiName} {f : FuncToConvert} {a : FnAnalysis} {w : CppFunction} {e : ExtraCpp}
      (hw : a.cppWrapper = some w) (hx : a.ignoreReason = none) (hc : a.externallyCallable = true)
      (he : generateCppFunctionInner m w false .rustCallsCpp false none = .ok e) :
      MadeAlone m makestring (.function n f a) [e]
  | instantiation {n : ApiName} {t : Ty} {cpp d : String} (ht : m.typeToCpp t = .ok d) :
      MadeAlone m makestring (.concreteType n (some t) cpp) [cppTypedef n.name d]
  | opaque {n : ApiName} {cpp : String} :
      MadeAlone m makestring (.concreteType n none cpp) [cppTypedef n.name cpp]
  | ctype {n : ApiName} {q : QName} : MadeAlone m makestring (.ctype n q) [cppTypedef q q.toCppName]
  | subclass {n : ApiName} {sup : QName} : MadeAlone m makestring (.subclass n sup) []
  | override {n sub : ApiName} {d : RustSubclassFnDetails} : MadeAlone m makestring (.rustSubclassFn n sub d) []
  | pod {n : ApiName} {s : StructDetails} {a : PodAndDepAnalysis} (h : a.pod.kind = .pod) :
      MadeAlone m makestring (.struct n s a) [podAssertion n.qualifiedCppName]

/-- The subclasses among some items, with their superclasses. -/
def subclassesIn (apis : List FnApi) : List (ApiName × QName) :=
  apis.filterMap fun a => match a with
  | .subclass n sup => some (n, sup)
  | _ => none

/-- The methods which a subclass has among some items. -/
def methodsFor (apis : List FnApi) (sub : ApiName) : List SubclassFunction :=
  apis.filterMap fun a => match a with
  | .rustSubclassFn _ s d => if s = sub then some ⟨d.cppImpl, d.isPureVirtual⟩ else none
  | _ => none

/-- The constructors which a subclass has among some items. -/
def ctorsFor (apis : List FnApi) (sub : ApiName) : List CppFunction :=
  apis.filterMap fun a => match a with
  | .function _ f _ =>
    match f.provenance with
    | .synthesizedSubclassConstructor s _ impl => if s = sub then some impl else none
    | _ => none
  | _ => none

theorem get_pushUnder {β : Type} (m : AMap ApiName (List β)) (k q : ApiName) (v : β) :
    (AMap.get? (pushUnder m k v) q).getD [] = (AMap.get? m q).getD [] ++ (if k = q then [v] else []) := by
  rw [pushUnder, AMap.get?_insert]
  by_cases h : k = q
  · subst h; simp
  · simp [h, Ne.symm h]

/-- What the loop has collected. -/
structure Collected (apis : List FnApi) (s : NeedsState) : Prop where
  deferred : s.deferred = subclassesIn apis
  methods : ∀ sub, (AMap.get? s.methods sub).getD [] = methodsFor apis sub
  ctors : ∀ sub, (AMap.get? s.ctors sub).getD [] = ctorsFor apis sub

theorem needs_step {m : CppNameMap} {mk : String} {done : List FnApi} {s s' : NeedsState} {a : FnApi}
    (hc : Collected done s) (h : needsStep m mk s a = .ok s') :
    Collected (done ++ [a]) s' ∧ ∃ l, MadeAlone m mk a l ∧ s'.made = s.made ++ l := by
  have keep : ∀ (x : FnApi) (l : List ExtraCpp), (∀ d : List FnApi, subclassesIn (d ++ [x]) = subclassesIn d) →
      (∀ (d : List FnApi) sub, methodsFor (d ++ [x]) sub = methodsFor d sub) →
      (∀ (d : List FnApi) sub, ctorsFor (d ++ [x]) sub = ctorsFor d sub) →
      Collected (done ++ [x]) { s with made := s.made ++ l } := fun x l h1 h2 h3 =>
    ⟨by rw [h1]; exact hc.deferred, fun sub => by rw [h2]; exact hc.methods sub,
      fun sub => by rw [h3]; exact hc.ctors sub⟩
  cases a with
  | stringConstructor n =>
    cases h
    exact ⟨keep _ _ (by simp [subclassesIn]) (by simp [methodsFor]) (by simp [ctorsFor]), _, .string, rfl⟩
  | ctype n q =>
    cases h
    exact ⟨keep _ _ (by simp [subclassesIn]) (by simp [methodsFor]) (by simp [ctorsFor]), _, .ctype, rfl⟩
  | concreteType n rs cpp =>
    rw [needsStep.eq_def] at h
    dsimp only at h
    obtain ⟨d, h1, h⟩ := Outcome.bind_ok h
    cases h
    refine ⟨keep _ _ (by simp [subclassesIn]) (by simp [methodsFor]) (by simp [ctorsFor]), _, ?_, rfl⟩
    cases rs with
    | none => cases h1; exact .opaque
    | some t => exact .instantiation h1
  | struct n d an =>
    rw [needsStep.eq_def] at h
    dsimp only at h
    split at h
    · rename_i hp
      cases h
      exact ⟨keep _ _ (by simp [subclassesIn]) (by simp [methodsFor]) (by simp [ctorsFor]), _, .pod hp, rfl⟩
    · cases h
  | subclass n sup =>
    cases h
    refine ⟨⟨?_, ?_, ?_⟩, [], .subclass, by simp⟩
    · show s.deferred ++ _ = _
      rw [hc.deferred]; simp [subclassesIn]
    · intro sub
      rw [show methodsFor (done ++ [.subclass n sup]) sub = methodsFor done sub by simp [methodsFor]]
      exact hc.methods sub
    · intro sub
      rw [show ctorsFor (done ++ [.subclass n sup]) sub = ctorsFor done sub by simp [ctorsFor]]
      exact hc.ctors sub
  | rustSubclassFn n sub d =>
    cases h
    refine ⟨⟨?_, ?_, ?_⟩, [], .override, by simp⟩
    · rw [show subclassesIn (done ++ [.rustSubclassFn n sub d]) = subclassesIn done by simp [subclassesIn]]
      exact hc.deferred
    · intro q
      show (AMap.get? (pushUnder s.methods sub _) q).getD [] = _
      rw [get_pushUnder, hc.methods]
      by_cases h : sub = q <;> simp [methodsFor, h]
    · intro q
      rw [show ctorsFor (done ++ [.rustSubclassFn n sub d]) q = ctorsFor done q by simp [ctorsFor]]
      exact hc.ctors q
  | function n f an =>
    rw [needsStep.eq_def] at h
    dsimp only at h
    split at h
    · rename_i w hw hx hcall
      obtain ⟨e, he, h⟩ := Outcome.bind_ok h
      cases h
      refine ⟨?_, [e], .function hw hx hcall he, ?_⟩
      · refine ⟨?_, ?_, ?_⟩
        · rw [show subclassesIn (done ++ [.function n f an]) = subclassesIn done by simp [subclassesIn]]
          rw [← hc.deferred]
          dsimp only
          split <;> rfl
        · intro q
          rw [show methodsFor (done ++ [.function n f an]) q = methodsFor done q by simp [methodsFor]]
          rw [← hc.methods]
          dsimp only
          split <;> rfl
        · intro q
          dsimp only
          split
          · rename_i sub x impl hp
            show (AMap.get? (pushUnder s.ctors sub _) q).getD [] = _
            rw [get_pushUnder, hc.ctors]
            by_cases h : sub = q <;> simp [ctorsFor, hp, h]
          · rename_i hp
            rw [hc.ctors]
            rw [ctorsFor, ctorsFor, List.filterMap_append, eq_comm, List.append_right_eq_self]
            rw [List.filterMap_cons_none, List.filterMap_nil]
            dsimp only
            split
            · rename_i sub x impl hp'
              exact absurd hp' (hp sub x impl)
            · rfl
      · dsimp only
        split <;> rfl
    · cases h
  | _ => cases h

/-! ## Everything which is made -/

theorem foldOutcome_ok {α β : Type} {f : β → α → Outcome β} : ∀ {l : List α} {b b' : β},
    foldOutcome f b l = .ok b' → ∀ (P : List α → β → Prop) (pre : List α), P pre b →
      (∀ pre a b b', P pre b → f b a = .ok b' → P (pre ++ [a]) b') → P (pre ++ l) b' := by
  intro l
  induction l with
  | nil => intro b b' h P pre hp _; cases h; simpa using hp
  | cons a l ih =>
    intro b b' h P pre hp hs
    rw [foldOutcome] at h
    obtain ⟨b1, h1, h⟩ := Outcome.bind_ok h
    have := ih h P (pre ++ [a]) (hs pre a b b1 hp h1) hs
    simpa using this

theorem All2.snoc {α β : Type} {R : α → β → Prop} {l : List α} {r : List β} {a : α} {b : β} (h : All2 R l r)
    (hab : R a b) : All2 R (l ++ [a]) (r ++ [b]) := by
  induction h with
  | nil => exact .cons hab .nil
  | cons h _ ih => exact .cons h ih

/-- C27: what is made is what is made for each item, in order, and then what is made for each subclass, in order, which is
made from all its constructors and all its methods. -/
theorem needs_made {m : CppNameMap} {mk : String} {apis : List FnApi} {made : List ExtraCpp}
    (hn : ((subclassesIn apis).map (·.1)).Nodup) (h : addNeeds m mk apis = .ok made) :
    ∃ parts subs, made = parts.flatten ++ subs.flatten ∧ All2 (MadeAlone m mk) apis parts ∧
      All2 (fun p l => generateSubclass m p.2 p.1 (ctorsFor apis p.1) (methodsFor apis p.1) = .ok l)
        (subclassesIn apis) subs := by
  rw [addNeeds] at h
  obtain ⟨s, h1, h⟩ := Outcome.bind_ok h
  obtain ⟨s', h2, h⟩ := Outcome.bind_ok h
  cases h
  obtain ⟨hc, parts, hp, hmade⟩ := foldOutcome_ok h1
    (fun done s => Collected done s ∧ ∃ parts, All2 (MadeAlone m mk) done parts ∧ s.made = parts.flatten) []
    ⟨⟨rfl, fun _ => rfl, fun _ => rfl⟩, [], .nil, rfl⟩
    (by
      rintro done a b b' ⟨hc, parts, hp, hmade⟩ hs
      obtain ⟨hc', l, hl, hm⟩ := needs_step hc hs
      exact ⟨hc', parts ++ [l], hp.snoc hl, by rw [hm, hmade]; simp⟩)
  simp only [List.nil_append] at hc hp
  have hd : ∀ (l pre : List (ApiName × QName)) (b : NeedsState),
      (pre ++ l).map (·.1) = (subclassesIn apis).map (·.1) →
      (∀ sub, sub ∉ pre.map (·.1) → (AMap.get? b.methods sub).getD [] = methodsFor apis sub ∧
        (AMap.get? b.ctors sub).getD [] = ctorsFor apis sub) →
      ∀ b', foldOutcome (deferredStep m) b l = .ok b' →
      ∃ subs, All2 (fun p l => generateSubclass m p.2 p.1 (ctorsFor apis p.1) (methodsFor apis p.1) = .ok l) l subs ∧
        b'.made = b.made ++ subs.flatten := by
    intro l
    induction l with
    | nil => intro pre b _ _ b' h; cases h; exact ⟨[], .nil, by simp⟩
    | cons p l ih =>
      intro pre b he hb b' h
      rw [foldOutcome] at h
      obtain ⟨b1, h1, h⟩ := Outcome.bind_ok h
      rw [deferredStep] at h1
      obtain ⟨x, hx, h1⟩ := Outcome.bind_ok h1
      cases h1
      have hnot : p.1 ∉ pre.map (·.1) := by
        rw [← he, List.map_append, List.map_cons] at hn
        intro hmem
        exact (List.nodup_append.1 hn).2.2 _ hmem _ (by simp) rfl
      rw [(hb _ hnot).1, (hb _ hnot).2] at hx
      obtain ⟨subs, h3, h4⟩ := ih (pre ++ [p]) _ (by simpa using he) (by
        intro sub hsub
        have h5 : sub ∉ pre.map (·.1) ∧ sub ≠ p.1 := by
          simp only [List.map_append, List.map_cons, List.map_nil, List.mem_append, List.mem_singleton, not_or] at hsub
          exact hsub
        show (AMap.get? (AMap.erase b.methods p.1) sub).getD [] = _ ∧ (AMap.get? (AMap.erase b.ctors p.1) sub).getD [] = _
        rw [AMap.get?_erase, AMap.get?_erase, if_neg (by first | exact h5.2 | exact Ne.symm h5.2),
          if_neg (by first | exact h5.2 | exact Ne.symm h5.2)]
        exact hb sub h5.1) b' h
      exact ⟨x :: subs, .cons hx h3, by rw [h4]; simp⟩
  obtain ⟨subs, h3, h4⟩ := hd s.deferred [] s (by rw [hc.deferred]; rfl)
    (fun sub _ => ⟨hc.methods sub, hc.ctors sub⟩) s' h2
  rw [hc.deferred] at h3
  exact ⟨parts, subs, by rw [h4, hmade], hp, h3⟩

/-! ## What needs making is made -/

/-- The items for which C++ has to be made. -/
inductive NeedsCpp : FnApi → Prop
  | string {n : ApiName} : NeedsCpp (.stringConstructor n)
  | function {n : ApiName} {f : FuncToConvert} {a : FnAnalysis} {w : CppFunction} (hw : a.cppWrapper = some w)
      (hx : a.ignoreReason = none) (hc : a.externallyCallable = true) : NeedsCpp (.function n f a)
  | instantiation {n : ApiName} {t : Option Ty} {cpp : String} : NeedsCpp (.concreteType n t cpp)
  | ctype {n : ApiName} {q : QName} : NeedsCpp (.ctype n q)
  | subclass {n : ApiName} {sup : QName} : NeedsCpp (.subclass n sup)
  | override {n sub : ApiName} {d : RustSubclassFnDetails} : NeedsCpp (.rustSubclassFn n sub d)
  | pod {n : ApiName} {s : StructDetails} {a : PodAndDepAnalysis} (h : a.pod.kind = .pod) : NeedsCpp (.struct n s a)

/-- C27: the analysis asks for C++ for just those items. -/
theorem needs_iff (a : FnApi) : a.needsCppCodegen = true ↔ NeedsCpp a := by
  constructor
  · intro h
    cases a with
    | function n f an =>
      simp only [FnApi.needsCppCodegen, Bool.and_eq_true, Option.isSome_iff_exists, Option.isNone_iff_eq_none] at h
      obtain ⟨⟨⟨w, hw⟩, hx⟩, hc⟩ := h
      exact .function hw hx hc
    | struct n d an => exact .pod (by simpa [FnApi.needsCppCodegen] using h)
    | stringConstructor => exact .string
    | concreteType => exact .instantiation
    | ctype => exact .ctype
    | subclass => exact .subclass
    | rustSubclassFn => exact .override
    | _ => cases h
  · intro h
    cases h with
    | function hw hx hc => simp [FnApi.needsCppCodegen, hw, hx, hc]
    | pod h => simp [FnApi.needsCppCodegen, h]
    | _ => rfl

/-- C27: the generator's own check is exactly the analysis's: it accepts what needs C++, whatever has been made before, but
for a failure to write down some type or function, and stops at anything else. -/
theorem generator_agrees (m : CppNameMap) (mk : String) (s : NeedsState) (a : FnApi) :
    (a.needsCppCodegen = false → needsStep m mk s a = .panic) ∧
    (a.needsCppCodegen = true → (∃ s', needsStep m mk s a = .ok s') ∨
      (∃ n f an w, a = .function n f an ∧ an.cppWrapper = some w ∧
        ∀ e, generateCppFunctionInner m w false .rustCallsCpp false none ≠ .ok e) ∨
      ∃ n t cpp, a = .concreteType n (some t) cpp ∧ ∀ d, m.typeToCpp t ≠ .ok d) := by
  constructor
  · intro h
    cases a with
    | function n f an =>
      rw [needsStep.eq_def]
      dsimp only
      split
      · rename_i w hw hx hc
        rw [(needs_iff _).2 (.function hw hx hc)] at h
        cases h
      · rfl
    | struct n d an =>
      rw [needsStep.eq_def]
      dsimp only
      rw [if_neg]
      intro hp
      rw [(needs_iff _).2 (.pod hp)] at h
      cases h
    | stringConstructor => cases h
    | concreteType => cases h
    | ctype => cases h
    | subclass => cases h
    | rustSubclassFn => cases h
    | _ => rfl
  · intro h
    cases (needs_iff a).1 h with
    | @function n f an w hw hx hc =>
      cases hg : generateCppFunctionInner m w false .rustCallsCpp false none with
      | ok e =>
        left
        rw [needsStep.eq_def]
        dsimp only
        rw [hw, hx, hc]
        dsimp only
        rw [hg]
        exact ⟨_, rfl⟩
      | err x => exact .inr (.inl ⟨n, f, an, w, rfl, hw, fun e => by rw [hg]; simp⟩)
      | panic => exact .inr (.inl ⟨n, f, an, w, rfl, hw, fun e => by rw [hg]; simp⟩)
    | @instantiation n t cpp =>
      cases t with
      | none => exact .inl ⟨_, rfl⟩
      | some t =>
        cases hg : m.typeToCpp t with
        | ok d =>
          left
          rw [needsStep.eq_def]
          dsimp only
          rw [hg]
          exact ⟨_, rfl⟩
        | err x => exact .inr (.inr ⟨n, t, cpp, rfl, fun e => by rw [hg]; simp⟩)
        | panic => exact .inr (.inr ⟨n, t, cpp, rfl, fun e => by rw [hg]; simp⟩)
    | pod hp =>
      left
      rw [needsStep.eq_def]
      dsimp only
      rw [if_pos hp]
      exact ⟨_, rfl⟩
    | _ => exact .inl ⟨_, rfl⟩

theorem step_made {m : CppNameMap} {mk : String} {a : FnApi} {l : List ExtraCpp} (h : MadeAlone m mk a l)
    (s : NeedsState) : ∃ s', needsStep m mk s a = .ok s' := by
  cases h with
  | function hw hx hc he =>
    rw [needsStep.eq_def]
    dsimp only
    rw [hw, hx, hc]
    dsimp only
    rw [he]
    exact ⟨_, rfl⟩
  | instantiation ht =>
    rw [needsStep.eq_def]
    dsimp only
    rw [ht]
    exact ⟨_, rfl⟩
  | pod hp =>
    rw [needsStep.eq_def]
    dsimp only
    rw [if_pos hp]
    exact ⟨_, rfl⟩
  | _ => exact ⟨_, rfl⟩

theorem MadeAlone.unique {m : CppNameMap} {mk : String} {a : FnApi} {l l' : List ExtraCpp} (h : MadeAlone m mk a l)
    (h' : MadeAlone m mk a l') : l = l' := by
  cases h with
  | function hw hx hc he =>
    cases h' with
    | function hw' hx' hc' he' =>
      cases hw.symm.trans hw'
      cases he.symm.trans he'
      rfl
  | instantiation ht =>
    cases h' with
    | instantiation ht' => cases ht.symm.trans ht'; rfl
  | _ => cases h'; rfl

theorem All2.unique {α β : Type} {R : α → β → Prop} (hu : ∀ a b c, R a b → R a c → b = c) {l : List α} {r s : List β}
    (h : All2 R l r) (h' : All2 R l s) : r = s := by
  induction h generalizing s with
  | nil => cases h'; rfl
  | cons h _ ih =>
    cases h' with
    | cons h1 h2 => rw [hu _ _ _ h h1, ih h2]

/-- C27: everything is made if each thing can be. -/
theorem needs_complete {m : CppNameMap} {mk : String} {apis : List FnApi} (hn : ((subclassesIn apis).map (·.1)).Nodup)
    {parts subs : List (List ExtraCpp)} (hp : All2 (MadeAlone m mk) apis parts)
    (hs : All2 (fun p l => generateSubclass m p.2 p.1 (ctorsFor apis p.1) (methodsFor apis p.1) = .ok l)
        (subclassesIn apis) subs) :
    addNeeds m mk apis = .ok (parts.flatten ++ subs.flatten) := by
  have h1 : ∀ (l : List FnApi) (ps : List (List ExtraCpp)) (b : NeedsState), All2 (MadeAlone m mk) l ps →
      ∃ b', foldOutcome (needsStep m mk) b l = .ok b' := by
    intro l ps b h
    induction h generalizing b with
    | nil => exact ⟨b, rfl⟩
    | cons h _ ih =>
      obtain ⟨b1, hb1⟩ := step_made h b
      obtain ⟨b2, hb2⟩ := ih b1
      exact ⟨b2, by rw [foldOutcome, hb1]; exact hb2⟩
  obtain ⟨s, h1⟩ := h1 apis parts {} hp
  have hc := foldOutcome_ok h1 (fun done s => Collected done s) [] ⟨rfl, fun _ => rfl, fun _ => rfl⟩
    (fun done a b b' hc hs => (needs_step hc hs).1)
  simp only [List.nil_append] at hc
  have h2 : ∀ (l pre : List (ApiName × QName)) (ls : List (List ExtraCpp)) (b : NeedsState),
      ((pre ++ l).map (·.1)).Nodup →
      (∀ sub, sub ∉ pre.map (·.1) → (AMap.get? b.methods sub).getD [] = methodsFor apis sub ∧
        (AMap.get? b.ctors sub).getD [] = ctorsFor apis sub) →
      All2 (fun p l => generateSubclass m p.2 p.1 (ctorsFor apis p.1) (methodsFor apis p.1) = .ok l) l ls →
      ∃ b', foldOutcome (deferredStep m) b l = .ok b' := by
    intro l
    induction l with
    | nil => intro pre ls b _ _ _; exact ⟨b, rfl⟩
    | cons p l ih =>
      intro pre ls b hn hb h
      cases h with
      | cons hx h =>
      have hnot : p.1 ∉ pre.map (·.1) := by
        rw [List.map_append, List.map_cons] at hn
        intro hmem
        exact (List.nodup_append.1 hn).2.2 _ hmem _ (by simp) rfl
      rw [foldOutcome, deferredStep, (hb _ hnot).1, (hb _ hnot).2, hx]
      refine ih (pre ++ [p]) _ _ (by simpa using hn) ?_ h
      intro sub hsub
      have h5 : sub ∉ pre.map (·.1) ∧ sub ≠ p.1 := by
        simp only [List.map_append, List.map_cons, List.map_nil, List.mem_append, List.mem_singleton, not_or] at hsub
        exact hsub
      show (AMap.get? (AMap.erase b.methods p.1) sub).getD [] = _ ∧ (AMap.get? (AMap.erase b.ctors p.1) sub).getD [] = _
      rw [AMap.get?_erase, AMap.get?_erase, if_neg (Ne.symm h5.2), if_neg (Ne.symm h5.2)]
      exact hb sub h5.1
  obtain ⟨s', h2⟩ := h2 s.deferred [] subs s (by rw [hc.deferred]; exact hn)
    (fun sub _ => ⟨hc.methods sub, hc.ctors sub⟩) (by rw [hc.deferred]; exact hs)
  have hok : addNeeds m mk apis = .ok s'.made := by
    rw [addNeeds, h1]
    show (foldOutcome (deferredStep m) s s.deferred).bind _ = _
    rw [h2]
    rfl
  obtain ⟨parts', subs', he, hp', hs'⟩ := needs_made hn hok
  have e1 : parts' = parts := All2.unique (R := MadeAlone m mk) (fun _ _ _ h h' => MadeAlone.unique h h') hp' hp
  have e2 : subs' = subs := All2.unique (fun _ _ _ h h' => Outcome.ok.inj (h.symm.trans h')) hs' hs
  rw [hok, he, e1, e2]

/-! ## The files -/

/-- One text is part of another. -/
def PartOf (s t : String) : Prop := ∃ a b, t = a ++ s ++ b

theorem PartOf.left {s t u : String} (h : PartOf s t) : PartOf s (t ++ u) := by
  obtain ⟨a, b, rfl⟩ := h; exact ⟨a, b ++ u, by simp only [String.append_assoc]⟩

theorem PartOf.right {s t u : String} (h : PartOf s t) : PartOf s (u ++ t) := by
  obtain ⟨a, b, rfl⟩ := h; exact ⟨u ++ a, b, by simp only [String.append_assoc]⟩

theorem PartOf.self (s : String) : PartOf s s := ⟨"", "", by simp⟩

theorem PartOf.join {sep s : String} : ∀ {l : List String}, s ∈ l → PartOf s (joinWith sep l)
  | [a], h => by rw [List.mem_singleton.1 h]; exact .self a
  | a :: b :: r, h => by
    rw [joinWith]
    rcases List.mem_cons.1 h with rfl | h
    · exact ((PartOf.self _).left).left
    · exact (PartOf.join h).right

theorem subclass_makes {m : CppNameMap} {sup : QName} {sub : ApiName} {ctors : List CppFunction}
    {methods : List SubclassFunction} {l : List ExtraCpp} (h : generateSubclass m sup sub ctors methods = .ok l) :
    l ≠ [] := by
  rw [generateSubclass] at h
  obtain ⟨ms, _, h⟩ := Outcome.bind_ok h
  obtain ⟨cs, _, h⟩ := Outcome.bind_ok h
  cases h
  simp

/-- The C++ made for a subclass. -/
structure SubclassText (m : CppNameMap) (sup : QName) (sub : ApiName) (ctors : List CppFunction)
    (methods : List SubclassFunction) (l : List ExtraCpp) : Prop where
  /-- There is one class, derived from the superclass, with all the declarations of constructors, overrides and functions
  calling the superclass's methods in it. -/
  cls : ∃ e ∈ l, ∃ t body, e.typeDefinition = some t ∧
    t = "class " ++ sub.cppPeer.display ++ " : public " ++ sup.toCppName ++ body ∧
    (∀ c ∈ ctors, ∃ x d, generateCppFunctionInner m c false .cppCallsCpp false none = .ok x ∧ x.declaration = some d ∧
      PartOf d body) ∧
    ∀ f ∈ methods, ∃ x d, generateCppFunctionInner m f.func true .cppCallsRust true (some f.func.originalCppName) = .ok x ∧
      x.declaration = some d ∧ PartOf d body ∧
      (f.isPureVirtual = false → ∃ y d', generateCppFunctionInner m (superMethod sup f.func) true .cppCallsCpp false none =
        .ok y ∧ y.declaration = some d' ∧ PartOf d' body)
  /-- Each override is defined, outside the class. -/
  defined : ∀ f ∈ methods, ∃ x, generateCppFunctionInner m f.func true .cppCallsRust true
    (some f.func.originalCppName) = .ok x ∧ ∃ e ∈ l, e.definition = x.definition ∧ e.declaration = none ∧
      e.definition.isSome = true
  /-- The type holding the Rust object is declared. -/
  holder : ∃ e ∈ l, e.typeDefinition = some ("struct " ++ sub.holder ++ ";")
  /-- Nothing but the cast of owning pointers is declared outside the class. -/
  outside : ∀ e ∈ l, ∀ d, e.declaration = some d → e = subclassUniquePtrCast sup sub

theorem inner_declared {m : CppNameMap} {d : CppFunction} {av : Bool} {dir : ConversionDirection} {rd : Bool}
    {force : Option String} {e : ExtraCpp} (h : generateCppFunctionInner m d av dir rd force = .ok e) :
    (∃ s, e.declaration = some s) ∧ e.typeDefinition = none ∧ (rd = true → e.definition.isSome = true) := by
  obtain ⟨t⟩ := gen_steps h
  rw [t.he]
  refine ⟨⟨_, rfl⟩, rfl, ?_⟩
  rintro rfl
  rfl

theorem method_parts {m : CppNameMap} {sup : QName} {f : SubclassFunction} {r : List String × List ExtraCpp}
    (h : subclassMethodCpp m sup f = .ok r) :
    ∃ x d, generateCppFunctionInner m f.func true .cppCallsRust true (some f.func.originalCppName) = .ok x ∧
      x.declaration = some d ∧ d ∈ r.1 ∧ { x with declaration := none } ∈ r.2 ∧ (∀ e ∈ r.2, e.declaration = none) ∧
      (f.isPureVirtual = false → ∃ y d', generateCppFunctionInner m (superMethod sup f.func) true .cppCallsCpp false none =
        .ok y ∧ y.declaration = some d' ∧ d' ∈ r.1) := by
  rw [subclassMethodCpp] at h
  obtain ⟨x, hx, h⟩ := Outcome.bind_ok h
  obtain ⟨⟨d, hd⟩, _, _⟩ := inner_declared hx
  refine ⟨x, d, hx, hd, ?_⟩
  split at h
  · rename_i hp
    cases h
    refine ⟨by simp [hd], by simp, by simp, ?_⟩
    intro h; rw [hp] at h; cases h
  · obtain ⟨y, hy, h⟩ := Outcome.bind_ok h
    obtain ⟨⟨d', hd'⟩, _, _⟩ := inner_declared hy
    cases h
    exact ⟨by simp [hd], by simp, by simp, fun _ => ⟨y, d', hy, hd', by simp [hd']⟩⟩

theorem ctor_parts {m : CppNameMap} {c : CppFunction} {r : List String × List ExtraCpp}
    (h : subclassConstructorCpp m c = .ok r) :
    ∃ x d, generateCppFunctionInner m c false .cppCallsCpp false none = .ok x ∧ x.declaration = some d ∧ d ∈ r.1 ∧
      ∀ e ∈ r.2, e.declaration = none := by
  rw [subclassConstructorCpp] at h
  obtain ⟨x, hx, h⟩ := Outcome.bind_ok h
  obtain ⟨⟨d, hd⟩, _, _⟩ := inner_declared hx
  cases h
  exact ⟨x, d, hx, hd, by simp [hd], by simp⟩

/-- C27, C66: the class of a subclass has every constructor, every override and every function calling the superclass's
version in it, and every override is defined. -/
theorem subclass_text {m : CppNameMap} {sup : QName} {sub : ApiName} {ctors : List CppFunction}
    {methods : List SubclassFunction} {l : List ExtraCpp} (h : generateSubclass m sup sub ctors methods = .ok l) :
    SubclassText m sup sub ctors methods l := by
  rw [generateSubclass] at h
  obtain ⟨ms, h1, h⟩ := Outcome.bind_ok h
  obtain ⟨cs, h2, h⟩ := Outcome.bind_ok h
  cases h
  have h1 := mapOutcome_ok.1 h1
  have h2 := mapOutcome_ok.1 h2
  refine ⟨?_, ?_, ?_, ?_⟩
  · refine ⟨subclassClass sup sub (cs.flatMap (·.1)) (ms.flatMap (·.1) ++ subclassCastDecls sup), by simp, _,
      "\n{\npublic:\n" ++ (joinWith "\n" (cs.flatMap (·.1)) ++ ("\n" ++
        (joinWith "\n" (ms.flatMap (·.1) ++ subclassCastDecls sup) ++ ("\nvoid " ++ (sub.cppRemoveOwnership ++
      ("() const;\nprivate:rust::Box<" ++ (sub.holder ++ "> obs;\nvoid really_remove_ownership();\n\n};"))))))), rfl, ?_, ?_, ?_⟩
    · simp only [String.append_assoc]
    · intro c hc
      obtain ⟨r, hr, hc⟩ := h2.left hc
      obtain ⟨x, d, hx, hd, hmem, _⟩ := ctor_parts hc
      exact ⟨x, d, hx, hd, ((PartOf.join (List.mem_flatMap.2 ⟨r, hr, hmem⟩)).left).right⟩
    · intro f hf
      obtain ⟨r, hr, hf⟩ := h1.left hf
      obtain ⟨x, d, hx, hd, hmem, _, _, hsup⟩ := method_parts hf
      refine ⟨x, d, hx, hd, ?_, ?_⟩
      · have : PartOf d (joinWith "\n" (ms.flatMap (·.1) ++ subclassCastDecls sup)) :=
          PartOf.join (List.mem_append_left _ (List.mem_flatMap.2 ⟨r, hr, hmem⟩))
        exact (((this.left).right).right).right
      · intro hp
        obtain ⟨y, d', hy, hd', hmem'⟩ := hsup hp
        have : PartOf d' (joinWith "\n" (ms.flatMap (·.1) ++ subclassCastDecls sup)) :=
          PartOf.join (List.mem_append_left _ (List.mem_flatMap.2 ⟨r, hr, hmem'⟩))
        exact ⟨y, d', hy, hd', (((this.left).right).right).right⟩
  · intro f hf
    obtain ⟨r, hr, hf⟩ := h1.left hf
    obtain ⟨x, d, hx, hd, _, hmem, _⟩ := method_parts hf
    refine ⟨x, hx, { x with declaration := none }, ?_, rfl, rfl, (inner_declared hx).2.2 rfl⟩
    simp only [List.mem_append, List.mem_flatMap]
    exact .inl (.inl (.inl (.inr ⟨r, hr, hmem⟩)))
  · exact ⟨{ typeDefinition := some ("struct " ++ sub.holder ++ ";") }, by simp, rfl⟩
  · intro e he d hd
    simp only [List.mem_append, List.mem_flatMap, List.mem_singleton] at he
    rcases he with (((rfl | ⟨r, hr, he⟩) | rfl) | ⟨r, hr, he⟩) | rfl
    · cases hd
    · obtain ⟨f, _, hf⟩ := h1.right hr
      obtain ⟨_, _, _, _, _, _, hnone, _⟩ := method_parts hf
      rw [hnone e he] at hd
      cases hd
    · rfl
    · obtain ⟨f, _, hf⟩ := h2.right hr
      obtain ⟨_, _, _, _, _, hnone⟩ := ctor_parts hf
      rw [hnone e he] at hd
      cases hd
    · cases hd

/-- What the files made for some items have in them. -/
structure FilesHold (o : CppOptions) (cxxgenHeader modName inclusions : String) (made : List ExtraCpp)
    (r : CppFilePair) : Prop where
  name : r.headerName = o.headerNamer modName
  types : ∀ e ∈ made, ∀ t, e.typeDefinition = some t → PartOf t r.header
  declarations : ∀ e ∈ made, ∀ t, e.declaration = some t → PartOf t r.header
  included : PartOf inclusions r.header
  headers : ∀ e ∈ made, ∀ h ∈ e.headers, (o.suppressSystemHeaders = true → h.isSystem = false) →
    PartOf (h.includeStmt o cxxgenHeader) r.header
  definitions : ∀ e ∈ made, ∀ t, e.definition = some t → ∃ i, r.implementation = some i ∧ PartOf t i ∧
    PartOf ("#include \"" ++ r.headerName ++ "\"") i ∧
    ∀ e' ∈ made, ∀ h ∈ e'.cppHeaders, (o.suppressSystemHeaders = true → h.isSystem = false) →
      PartOf (h.includeStmt o cxxgenHeader) i
  implementation : r.implementation.isSome = true → ∃ e ∈ made, e.definition.isSome = true

theorem mem_setInserts {α : Type} [DecidableEq α] {a : α} : ∀ {l acc : List α},
    a ∈ l.foldl setInsert acc ↔ a ∈ acc ∨ a ∈ l := by
  intro l
  induction l with
  | nil => intro acc; simp
  | cons b l ih =>
    intro acc
    rw [List.foldl_cons, ih]
    have : a ∈ setInsert acc b ↔ a ∈ acc ∨ a = b := by
      unfold setInsert; split
      · rename_i hb
        constructor
        · exact .inl
        · rintro (h | rfl)
          · exact h
          · exact hb
      · simp
    rw [this, List.mem_cons, or_assoc]

theorem header_collected {o : CppOptions} {cxxgenHeader : String} {made : List ExtraCpp} {sel : ExtraCpp → List Header}
    {e : ExtraCpp} (he : e ∈ made) {h : Header} (hh : h ∈ sel e)
    (hs : o.suppressSystemHeaders = true → h.isSystem = false) :
    PartOf (h.includeStmt o cxxgenHeader) (collectHeaders o cxxgenHeader made sel) := by
  rw [collectHeaders]
  apply PartOf.join
  apply List.mem_map_of_mem
  rw [mem_setInserts]
  right
  rw [List.mem_filter]
  refine ⟨List.mem_flatMap.2 ⟨e, he, hh⟩, ?_⟩
  cases ho : o.suppressSystemHeaders with
  | false => rfl
  | true => simp [hs ho]

/-- C27: files are made exactly if anything is, and everything made is in them. -/
theorem files_made (o : CppOptions) (cxxgenHeader modName inclusions : String) (made : List ExtraCpp) :
    (generateFiles o cxxgenHeader modName inclusions made = none ↔ made = []) ∧
    ∀ r, generateFiles o cxxgenHeader modName inclusions made = some r →
      FilesHold o cxxgenHeader modName inclusions made r := by
  constructor
  · rw [generateFiles]
    split
    · simp [*]
    · simp [*]
  · intro r h
    rw [generateFiles] at h
    split at h
    · cases h
    · cases h
      refine ⟨rfl, ?_, ?_, ?_, ?_, ?_, ?_⟩
      · intro e he t ht
        have : PartOf t (concatItems made (·.typeDefinition)) :=
          (PartOf.join (List.mem_filterMap.2 ⟨e, he, ht⟩)).left
        exact (((this.right).left).left).left
      · intro e he t ht
        have : PartOf t (concatItems made (·.declaration)) :=
          (PartOf.join (List.mem_filterMap.2 ⟨e, he, ht⟩)).left
        exact this.right.left
      · exact ((((((PartOf.self _).right).left).left).left).left).left
      · intro e he h hh hs
        have := header_collected (cxxgenHeader := cxxgenHeader) (sel := (·.headers)) he hh hs
        exact ((((((((this.right).left).left).left).left).left).left).left)
      · intro e he t ht
        have hany : made.any (fun e => e.definition.isSome) = true :=
          List.any_eq_true.2 ⟨e, he, by rw [ht]; rfl⟩
        dsimp only
        rw [if_pos hany]
        refine ⟨_, rfl, ?_, ?_, ?_⟩
        · have : PartOf t (concatItems made (·.definition)) :=
            (PartOf.join (List.mem_filterMap.2 ⟨e, he, ht⟩)).left
          exact this.right
        · refine ⟨generatedFileHeader ++ "\n", "\n" ++ collectHeaders o cxxgenHeader made (·.cppHeaders) ++ "\n" ++
            concatItems made (·.definition), ?_⟩
          rw [show "\n#include \"" = "\n" ++ "#include \"" from by decide,
            show "\"\n" = "\"" ++ "\n" from by decide]
          simp only [String.append_assoc]
        · intro e' he' h hh hs
          have := header_collected (cxxgenHeader := cxxgenHeader) (sel := (·.cppHeaders)) he' hh hs
          exact ((this.right).left).left
      · intro h
        dsimp only at h
        split at h
        · rename_i hany
          exact List.any_eq_true.1 hany
        · cases h

/-- C27: with no two items of the same name, no C++ is generated exactly if the only items which need any are methods of
subclasses. -/
theorem no_files_iff {o : CppOptions} {hash : Config → Nat} {cfg : Config} {cxxgenHeader inclusions : String}
    {apis : List FnApi} {r : Option CppFilePair} (hn : ((subclassesIn apis).map (·.1)).Nodup)
    (h : generateCppCode o hash cfg cxxgenHeader inclusions apis = .ok r) :
    r = none ↔ ∀ a ∈ apis, NeedsCpp a → ∃ n sub d, a = .rustSubclassFn n sub d := by
  rw [generateCppCode] at h
  obtain ⟨made, h1, h⟩ := Outcome.bind_ok h
  cases h
  have hf : subclassesIn (apis.filter fun a => a.needsCppCodegen) = subclassesIn apis := by
    rw [subclassesIn, subclassesIn, List.filterMap_filter]
    congr 1
    funext a
    cases a with
    | subclass => rfl
    | _ => simp
  obtain ⟨parts, subs, rfl, hp, hs⟩ := needs_made (by rw [hf]; exact hn) h1
  rw [hf] at hs
  rw [(files_made o cxxgenHeader _ inclusions _).1, List.append_eq_nil_iff]
  constructor
  · rintro ⟨h1, h2⟩ a ha hneed
    have hsub : ∀ p ∈ subclassesIn apis, False := by
      intro p hp
      obtain ⟨l, hl, hg⟩ := hs.left hp
      exact subclass_makes hg (List.flatten_eq_nil_iff.1 h2 l hl)
    obtain ⟨l, hl, hm⟩ := hp.left (List.mem_filter.2 ⟨ha, (needs_iff a).2 hneed⟩)
    have hl := List.flatten_eq_nil_iff.1 h1 l hl
    subst hl
    cases hm with
    | @subclass n sup =>
      exact (hsub (n, sup) (List.mem_filterMap.2 ⟨_, ha, rfl⟩)).elim
    | override => exact ⟨_, _, _, rfl⟩
  · intro hall
    have hs0 : subclassesIn apis = [] := by
      rw [List.eq_nil_iff_forall_not_mem]
      intro p hp
      obtain ⟨a, ha, hap⟩ := List.mem_filterMap.1 hp
      cases a with
      | subclass n sup =>
        obtain ⟨_, _, _, h⟩ := hall _ ha .subclass
        cases h
      | _ => cases hap
    constructor
    · rw [List.flatten_eq_nil_iff]
      intro l hl
      obtain ⟨a, ha, hm⟩ := hp.right hl
      obtain ⟨ha, hneed⟩ := List.mem_filter.1 ha
      obtain ⟨_, _, _, rfl⟩ := hall a ha ((needs_iff a).1 hneed)
      cases hm
      rfl
    · rw [hs0] at hs
      cases hs
      rfl

end Verif
