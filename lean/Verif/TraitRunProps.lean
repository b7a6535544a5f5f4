import Verif.TraitMethodProps
import Verif.TightProps
import Verif.BindTotalProps

/-!
# C66, C69: functions C++ calls and the methods of traits they call, in whole runs

That they agree is proved for a pass in `pass_agrees_partial`; here it is followed to what a whole run delivers.
-/

set_option autoImplicit false

namespace Verif

/-- Whether an item is a function C++ calls, or the method of a trait. -/
def Api.ForSubclass {T S F : Type} : Api T S F → Prop
  | .rustSubclassFn .. | .subclassTraitItem .. => True
  | _ => False

theorem forSubclass_dup {T S F : Type} {q : QName} : ¬ (ApiVec.duplicateMarker q : Api T S F).ForSubclass := id

/-- The special members C++ provides are not virtual, so nothing is made for subclasses. -/
theorem synthesizeMember_items {env : FnEnv} {s s' : FnState} {v v' : ApiVec TypedefAnalysis PodAnalysis FnAnalysis}
    {key : QName} {i : ItemsFound} {k : SpecialMemberKind} (h : synthesizeMember env s v key i k = .done (s', v'))
    (hi : v.Inv) : v'.Inv ∧ ∀ x ∈ v'.apis, x.ForSubclass → x ∈ v.apis := by
  rw [synthesizeMember] at h
  split at h
  · cases h
  · obtain ⟨⟨s1, r⟩, h1, h⟩ := PassRun.bind_done.1 h
    cases h
    refine ⟨ApiVec.extend_inv hi _, fun x hx hs => ?_⟩
    rw [analyzeFnAndSubclasses] at h1
    obtain ⟨⟨s2, a, n1⟩, h2, h1⟩ := PassRun.bind_done.1 h1
    dsimp only at h1
    split at h1
    · cases h1
      rcases extend_mem_cases _ hi hx with h | h | ⟨q, rfl⟩
      · exact h
      · cases List.mem_singleton.1 h
        exact absurd hs id
      · exact absurd hs id
    · rename_i hv
      rcases (virtual_object h2 hv).1 with ⟨e, -⟩ | ⟨e, -⟩ <;> cases e

theorem synthesizeMembers_items {env : FnEnv} {key : QName} {i : ItemsFound} : ∀ {l : List SpecialMemberKind} {s s' : FnState}
    {v v' : ApiVec TypedefAnalysis PodAnalysis FnAnalysis}, synthesizeMembers env key i s v l = .done (s', v') → v.Inv →
    v'.Inv ∧ ∀ x ∈ v'.apis, x.ForSubclass → x ∈ v.apis
  | [], s, s', v, v', h, hi => by cases h; exact ⟨hi, fun _ h _ => h⟩
  | k :: l, s, s', v, v', h, hi => by
    rw [synthesizeMembers] at h
    obtain ⟨⟨s1, v1⟩, h1, h⟩ := PassRun.bind_done.1 h
    obtain ⟨i1, m1⟩ := synthesizeMember_items h1 hi
    obtain ⟨i2, m2⟩ := synthesizeMembers_items h i1
    exact ⟨i2, fun x hx hs => m1 x (m2 x hx hs) hs⟩

theorem synthesizeAll_items {env : FnEnv} : ∀ {l : List (QName × ItemsFound)} {s s' : FnState}
    {v v' : ApiVec TypedefAnalysis PodAnalysis FnAnalysis}, synthesizeAll env s v l = .done (s', v') → v.Inv →
    v'.Inv ∧ ∀ x ∈ v'.apis, x.ForSubclass → x ∈ v.apis
  | [], s, s', v, v', h, hi => by cases h; exact ⟨hi, fun _ h _ => h⟩
  | (key, i) :: l, s, s', v, v', h, hi => by
    rw [synthesizeAll] at h
    obtain ⟨⟨s1, v1⟩, h1, h⟩ := PassRun.bind_done.1 h
    have hm : v1.Inv ∧ ∀ x ∈ v1.apis, x.ForSubclass → x ∈ v.apis := by
      split at h1
      · cases h1; exact ⟨hi, fun _ h _ => h⟩
      · exact synthesizeMembers_items h1 hi
    obtain ⟨i2, m2⟩ := synthesizeAll_items h hm.1
    exact ⟨i2, fun x hx hs => hm.2 x (m2 x hx hs) hs⟩

/-- What the analysis of functions makes for subclasses is made by the steps for the functions of the header. -/
theorem pass_for_subclasses {fuel : Nat} {hash : Config → Nat} {policy : UnsafePolicy} {cfg : Config} {force : Bool}
    {apis : ApiVec TypedefAnalysis PodAnalysis Unit} {out : ApiVec TypedefAnalysis PodAndConstructorAnalysis FnAnalysis}
    (h : analyzeFunctions fuel hash policy cfg force apis = .done out) (hl : traitItems apis.apis = []) :
    ∃ env s0 s1 out1, FnEnv.ofApis fuel hash policy cfg force apis.apis = some (env, s0) ∧
      fnSteps env s0 apis.apis = .done (s1, out1) ∧
      ∀ y ∈ out.apis, y.ForSubclass → ∃ x ∈ out1, x.shape = y.shape := by
  rw [analyzeFunctions.eq_def] at h
  split at h
  · cases h
  · rename_i env s0 henv
    obtain ⟨ht0, he0, _⟩ := ofApis_start henv
    obtain ⟨⟨s1, out1⟩, h1, h⟩ := PassRun.bind_done.1 h
    obtain ⟨⟨s2, w2⟩, h2, h⟩ := PassRun.bind_done.1 h
    obtain ⟨⟨s3, w3⟩, h3, h⟩ := PassRun.bind_done.1 h
    obtain ⟨e, h4, h⟩ := PassRun.bind_done.1 h
    cases h
    refine ⟨env, s0, s1, out1, henv, h1, ?_⟩
    obtain ⟨tr1, m1, a⟩ := fnSteps_made h1 (by rw [ht0]; exact List.nodup_nil) hl
    rw [addConstructorsPresent.eq_def] at h2
    split at h2
    · cases h2
    · rename_i found hf
      obtain ⟨⟨s2', v2⟩, h5, h2⟩ := PassRun.bind_done.1 h2
      cases h2
      obtain ⟨tr2, m2, b⟩ := synthesizeAll_made h5 a.nodup
      obtain ⟨i2, q2⟩ := synthesizeAll_items h5 (fromIter_inv _)
      rw [addSubclassConstructors] at h3
      obtain ⟨⟨s3', v3⟩, h6, h3⟩ := PassRun.bind_done.1 h3
      cases h3
      have hap : (ApiVec.fromIter (v2.apis.map (withConstructors found))).apis = v2.apis.map (withConstructors found) := by
        apply fromIter_apis
        rw [List.map_map]
        have : ((fun x : FnPre2Api => x.name) ∘ withConstructors found) = fun x => x.name :=
          funext (withConstructors_name found)
        rw [this]
        exact i2.1
      rw [hap] at h6
      obtain ⟨tr3, m3, c⟩ := subclassCtorsOf_made h6
      have hx : s3.ExtraOk := by
        refine Trace.extraOk ((a.trace.append b.trace).append c.trace) ?_
        rw [FnState.ExtraOk, he0]
        exact ⟨ApiVec.inv_empty, by simp⟩
      have h4' := addAnalyses_ok (T := TypedefAnalysis) (S := PodAndConstructorAnalysis) (F := FnAnalysis) (fun _ => default)
        (fun _ => default) (fun _ => default) s3.extra.apis hx.2
      rw [h4'] at h4
      cases h4
      intro y hy hs
      rcases extend_mem_cases _ (ApiVec.extend_inv (fromIter_inv _) _) hy with hy | hy | ⟨q, rfl⟩
      · rcases extend_mem_cases _ (fromIter_inv _) hy with hy | hy | ⟨q, rfl⟩
        · rw [hap] at hy
          obtain ⟨x, hx1, rfl⟩ := List.mem_map.1 hy
          have hsx : x.ForSubclass := by
            cases x <;> first | exact trivial | (exact absurd hs id)
          have hx2 := q2 x hx1 hsx
          rcases extend_mem_cases _ ApiVec.inv_empty hx2 with h | h | ⟨q, rfl⟩
          · cases h
          · refine ⟨x, h, ?_⟩
            cases x <;> first | (cases hsx; done) | rfl
          · exact absurd hsx id
        · rcases (c.held Held.empty).from_ y hy with hy | ⟨hd, -⟩
          · rw [List.nil_append] at hy
            obtain ⟨r, -, rfl⟩ := c.from_ y hy
            exact absurd hs id
          · rw [hd] at hs
            exact absurd hs id
        · exact absurd hs id
      · obtain ⟨x, hx1, rfl⟩ := List.mem_map.1 hy
        rcases hx.2 x hx1 with ⟨id', rs, cpp, rfl⟩ | hd
        · exact absurd hs id
        · rw [hd] at hs
          exact absurd hs id
      · exact absurd hs id

/-! ## Names of the methods of traits -/

set_option maxRecDepth 10000 in
theorem known_last_table : ∀ n ∈ knownTypesLit.allNames,
    OptAll (fun _ => n.name.toList.getLast? ≠ some 'm') (knownTypesLit.get n) := by decide +kernel

theorem trait_name_last (sup : QName) (r : String) : (traitApiName sup r).name.toList.getLast? = some 'm' := by
  have e : "_trait_item".toList.getLast? = some 'm' := by decide
  rw [traitApiName, String.toList_append, List.getLast?_append, e]
  rfl

/-- No known type is named as the methods of traits are filed. -/
theorem trait_name_not_known (sup : QName) (r : String) : isKnownType (traitApiName sup r) = false := by
  rw [isKnownType, Option.isSome_eq_false_iff, Option.isNone_iff_eq_none]
  by_contra hc
  obtain ⟨d, hd⟩ := Option.ne_none_iff_exists'.1 hc
  have := known_forall (fun q _ => q.name.toList.getLast? ≠ some 'm') (fun n hn d hd => by
    have := known_last_table n hn
    rw [hd] at this
    exact this) hd
  exact this (trait_name_last sup r)

/-- Nor are the helpers of subclasses. -/
theorem trait_name_not_helper (sup : QName) (r a : String) :
    traitApiName sup r ≠ ⟨[], a ++ "Holder"⟩ ∧ traitApiName sup r ≠ ⟨[], a ++ "Cpp"⟩ := by
  constructor <;>
  · intro h
    have := (trait_name_last sup r).symm.trans (congrArg (fun q => q.name.toList.getLast?) h)
    simp [String.toList_append, List.getLast?_append] at this

variable {fuel : Nat} {hash : Config → Nat} {sigOf : RustSig → RustFnSig} {policy : UnsafePolicy} {cfg : Config}
  {force : Bool} {cb : Callbacks} {items : List BindgenItem} {out : FnApiVec}
  (p : ConvertStages fuel hash sigOf policy cfg force cb items out)
include p

namespace ConvertStages

/-- What is delivered for subclasses came out of the analysis of functions. -/
theorem delivered_for_subclass {y : FnApi} (h : y ∈ out.apis) (hs : y.ForSubclass) :
    ∃ x ∈ p.fns.apis, x.ForSubclass ∧ x.shape = y.shape := by
  rcases p.delivered_reachable h with ⟨_, _, rfl⟩ | ⟨z, hz, -, e, -⟩
  · exact absurd hs id
  · rcases e with rfl | rfl
    · have hr : y.isIgnored = false := by cases y <;> first | (cases hs; done) | rfl
      obtain ⟨-, -, x, hx, hsh, -⟩ := p.item_origin hz hr
      refine ⟨x, hx, ?_, hsh⟩
      cases y <;> first | (cases hs; done) | (cases x <;> first | (cases hsh; done) | exact trivial)
    · exact absurd hs id

/-- The parser finds nothing of what is made for subclasses. -/
theorem allocs_for_subclass {x : PodApi} (hx : x ∈ p.allocs.apis) : ¬ x.ForSubclass := by
  intro hs
  rcases p.allocs_from x hx with h | h | ⟨a, ha, has⟩
  · cases x <;> first | (cases h; done) | exact hs
  · cases h <;> exact hs
  · have h1 := parsed_kinds p.hparse ha
    cases x <;> first | (cases hs; done) | (cases a <;> first | (cases has; done) | exact h1)

/-- **C66, C69 (partial)**: in what a whole run delivers, a function C++ calls and the method of a trait it asks for agree:
they have the same name, belong to the same class, have the same parameters but for the first and the same result, and are
`unsafe`, change their object and are pure virtual alike, unless there are two virtual methods whose trait methods are given
the same name. What is missing is that there are none such, which is false: see `override_without_trait_method_false`. -/
theorem run_agrees_partial {n sub tn : ApiName} {d : RustSubclassFnDetails} {m : SuperclassMethod}
    (h1 : .rustSubclassFn n sub d ∈ out.apis) (h2 : .subclassTraitItem tn m ∈ out.apis)
    (hd : d.dependencies.head? = some tn.name) :
    (d.methodName = m.name ∧ d.superclass = m.receiver ∧ d.params.drop 1 = m.params.drop 1 ∧ d.ret = m.retType ∧
      d.requiresUnsafe = m.requiresUnsafe ∧ d.receiverMutability = m.receiverMutability ∧
      d.isPureVirtual = m.isPureVirtual) ∨
    ∃ env s0, FnEnv.ofApis fuel hash policy cfg force p.allocs.apis = some (env, s0) ∧
    ∃ n1 f1 u1 s1 r1 a1 m1 sup1 recv1 n2 f2 u2 s2 r2 a2 m2 sup2 recv2,
      ([Api.function n1 f1 u1, .function n2 f2 u2].Sublist p.allocs.apis ∨
        [Api.function n2 f2 u2, .function n1 f1 u1].Sublist p.allocs.apis) ∧
      f1.virtualness ≠ none ∧ f2.virtualness ≠ none ∧
      analyzeForeignFn env s1 n1 f1 .regular none = .done (r1, a1, m1) ∧
      analyzeForeignFn env s2 n2 f2 .regular none = .done (r2, a2, m2) ∧
      a1.kind.virtualOf = some (sup1, recv1) ∧ a2.kind.virtualOf = some (sup2, recv2) ∧
      traitApiName sup1 a1.rustName = traitApiName sup2 a2.rustName := by
  obtain ⟨env, s0, s1, out1, henv, hsteps, hfor⟩ := pass_for_subclasses p.hfns p.allocs_traitItems
  have key : ∀ y ∈ out.apis, y.ForSubclass → ∃ x ∈ out1, x.shape = y.shape := by
    intro y hy hs
    obtain ⟨x, hx, hxs, e⟩ := p.delivered_for_subclass hy hs
    obtain ⟨z, hz, e'⟩ := hfor x hx hxs
    exact ⟨z, hz, e'.trans e⟩
  have k1 : .rustSubclassFn n sub d ∈ out1 := by
    obtain ⟨x, hx, e⟩ := key _ h1 trivial
    cases x <;> first | (cases e; done) | (cases e; exact hx)
  have k2 : .subclassTraitItem tn m ∈ out1 := by
    obtain ⟨x, hx, e⟩ := key _ h2 trivial
    cases x <;> first | (cases e; done) | (cases e; exact hx)
  rcases pass_agrees_partial hsteps (fun _ _ _ h => p.allocs_for_subclass h trivial)
      (fun _ _ h => p.allocs_for_subclass h trivial) k1 k2 hd with h | h
  · exact .inl h
  · obtain ⟨n1, f1, u1, s1, r1, a1, m1, sup1, recv1, n2, f2, u2, s2, r2, a2, m2, sup2, recv2, g1, g2, g3, g4, g5, g6⟩ := h
    refine .inr ⟨env, s0, henv, n1, f1, u1, s1, r1, a1, m1, sup1, recv1, n2, f2, u2, s2, r2, a2, m2, sup2, recv2, g1, ?_, ?_, g2,
      g3, g4, g5, g6⟩
    · rcases (virtual_object g2 g4).1 with ⟨e, -⟩ | ⟨e, -⟩ <;> rw [e] <;> exact Option.some_ne_none _
    · rcases (virtual_object g3 g5).1 with ⟨e, -⟩ | ⟨e, -⟩ <;> rw [e] <;> exact Option.some_ne_none _

/-- **C56, C66**: what C++ calls for a virtual method comes with an item under the name of the method of the trait it calls,
which is the first thing it asks for. -/
theorem override_brings {n sub : ApiName} {d : RustSubclassFnDetails} (h : .rustSubclassFn n sub d ∈ out.apis) :
    ∃ b ∈ out.apis, d.dependencies.head? = some b.name ∧ ∃ r, b.name = traitApiName d.superclass r := by
  obtain ⟨env, s0, s1, out1, henv, hsteps, hfor⟩ := pass_for_subclasses p.hfns p.allocs_traitItems
  have k1 : .rustSubclassFn n sub d ∈ out1 := by
    obtain ⟨x, hx, hxs, e⟩ := p.delivered_for_subclass h trivial
    obtain ⟨z, hz, e'⟩ := hfor x hx hxs
    have e := e'.trans e
    cases z <;> first | (cases e; done) | (cases e; exact hz)
  have hhead : ∃ r, d.dependencies.head? = some (traitApiName d.superclass r) := by
    obtain ⟨steps, e1, rfl, e3⟩ := fnSteps_step hsteps
    obtain ⟨x, hx, hxo⟩ := List.mem_flatMap.1 k1
    have hmem : x.1 ∈ p.allocs.apis := by
      have : x.1 ∈ steps.map (·.1) := List.mem_map.2 ⟨x, hx, rfl⟩
      rw [e1] at this
      exact this
    obtain ⟨n1, f1, u1, hf1, ha1⟩ := fnStep_function (e3 x hx) hxo (.inl ⟨_, _, _, rfl⟩)
      (fun _ _ _ e => p.allocs_for_subclass hmem (by rw [e]; trivial))
      (fun _ _ e => p.allocs_for_subclass hmem (by rw [e]; trivial))
    obtain ⟨r1, a1, m1, sup1, recv1, simple1, -, -, hp1⟩ := made_for_virtual ha1 hxo (.inl ⟨_, _, _, rfl⟩)
    obtain ⟨deps, hh, e⟩ := hp1 _ hxo
    obtain ⟨-, -, rfl⟩ := Api.rustSubclassFn.inj e
    exact ⟨a1.rustName, hh⟩
  obtain ⟨r, hr⟩ := hhead
  have hd := List.mem_of_head? hr
  rcases p.delivered_reachable h with ⟨_, _, e⟩ | ⟨z, hz, -, e, hreach⟩
  · cases e
  · rcases e with rfl | e
    · have hc := (p.collected_iff _).2 ⟨hz, hreach⟩
      rcases p.delivered.closed _ hc rfl _ (by exact hd) with h | ⟨b, hb, hbn, -⟩ | ⟨sc, hsc, he, -⟩
      · rw [trait_name_not_known] at h
        cases h
      · obtain ⟨b', hb', hn', -⟩ := p.collected_delivered hb
        exact ⟨b', hb', by rw [hr, hn', hbn], r, by rw [hn', hbn]⟩
      · exact absurd he (not_or.2 (trait_name_not_helper _ _ _))
    · cases e

end ConvertStages

end Verif
