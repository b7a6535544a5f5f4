import Mathlib.Logic.Relation
import Verif.FnKindProps
import Verif.TypedefPassProps

/-!
# What the analysis of a function leaves behind

How the state of the function analyser changes: types are converted, overloads and names in the bridge are counted, and
nothing else happens.
-/

set_option autoImplicit false

namespace Verif

/-- Some types were converted. -/
def TypesConverted (env : FnEnv) : FnState → FnState → Prop :=
  Relation.ReflTransGen fun s s' => ∃ ns ty r, convertBoxed env s ns ty = .done (s', r)

theorem convertBoxed_inv {env : FnEnv} {s s' : FnState} {ns : List String} {ty : Ty} {r : Except Err (Annotated Ty)}
    (h : convertBoxed env s ns ty = .done (s', r)) :
    ∃ st, Grows s.concretes st ∧ (s' = { s with concretes := st } ∨
      ∃ a, convertType env.conv ns env.fuel .outerType s.concretes ty = (st, .ok a) ∧
        s' = { s with concretes := st, extra := s.extra.extend a.extra }) := by
  have g := convertType_grows env.conv ns env.fuel .outerType s.concretes ty
  cases r with
  | error e =>
    obtain ⟨st, hc, rfl⟩ := convertBoxed_err h
    rw [hc] at g
    exact ⟨st, g, .inl rfl⟩
  | ok a =>
    obtain ⟨st, hc, rfl⟩ := convertBoxed_ok h
    rw [hc] at g
    exact ⟨st, g, .inr ⟨a, hc, rfl⟩⟩

theorem convertNamedArg_types {env : FnEnv} {s s' : FnState} {ns : List String} {m : ArgMode} {nm : Ident} {ty : Ty}
    {q : Option (QName × ReceiverMutability)} {b : Bool} {r : Except Err (FnArg × ArgumentAnalysis)}
    (h : convertNamedArg env s ns m nm ty q b = .done (s', r)) : TypesConverted env s s' := by
  rw [convertNamedArg] at h
  obtain ⟨⟨s1, x⟩, h1, h⟩ := PassRun.bind_done.1 h
  have e : s1 = s' := by
    cases x with
    | error e => cases h; rfl
    | ok a =>
      dsimp only at h
      split at h <;> cases h
      rfl
  subst e
  exact .single ⟨_, _, _, h1⟩

theorem convertFnArg_types {env : FnEnv} {s s' : FnState} {ns : List String} {diag : QName} {m : ArgMode} {i : FnArg}
    {r : Except Err (FnArg × ArgumentAnalysis)} (h : convertFnArg env s ns diag m i = .done (s', r)) :
    TypesConverted env s s' := by
  cases i with
  | receiver t => cases h
  | typed nm ty =>
    rw [convertFnArg] at h
    split at h
    · obtain ⟨x, hx, h⟩ := PassRun.bind_done.1 h
      cases x with
      | error e => cases h; exact .refl
      | ok q =>
        obtain ⟨q, ty'⟩ := q
        dsimp only at h
        split at h <;> exact convertNamedArg_types h
    · split at h
      · cases h
      · cases h; exact .refl
      · exact convertNamedArg_types h

theorem ParamFates.types {env : FnEnv} {ns : List String} {diag : QName} {m : ArgMode} {s s' : FnState}
    {l : List FnArg} {ps : List (FnArg × ArgumentAnalysis)} {es : List Err}
    (h : ParamFates env ns diag m s l s' ps es) : TypesConverted env s s' := by
  induction h with
  | nil => exact .refl
  | good h _ ih => exact (convertFnArg_types h).trans ih
  | bad h _ ih => exact (convertFnArg_types h).trans ih

theorem reanalyze_types {env : FnEnv} {s s' : FnState} {ns : List String} {diag : QName} {inputs : List FnArg}
    {m : ArgMode} {idx : Nat} {ps ps' : List (FnArg × ArgumentAnalysis)} {e : Option Err}
    (h : reanalyze env s ns diag inputs m idx ps = .done (s', ps', e)) : TypesConverted env s s' := by
  obtain ⟨i, _, ⟨p, h1, _⟩ | ⟨x, h1, _⟩⟩ := reanalyze_done h <;> exact convertFnArg_types h1

theorem reanalyzeParams_types {env : FnEnv} {s s' : FnState} {ns : List String} {diag : QName} {f : FuncToConvert}
    {soph : Sophistication} {kind : FnKind} {ps ps' : List (FnArg × ArgumentAnalysis)} {e : Option Err}
    (h : reanalyzeParams env s ns diag f soph kind ps = .done (s', ps', e)) : TypesConverted env s s' := by
  rw [reanalyzeParams.eq_def] at h
  dsimp only at h
  split at h
  · exact reanalyze_types h
  · exact reanalyze_types h
  · obtain ⟨⟨s1, ps1, e1⟩, h1, h⟩ := PassRun.bind_done.1 h
    cases h
    exact reanalyze_types h1
  · obtain ⟨⟨s1, ps1, e1⟩, h1, h⟩ := PassRun.bind_done.1 h
    obtain ⟨⟨s2, ps2, e2⟩, h2, h⟩ := PassRun.bind_done.1 h
    cases h
    exact (reanalyze_types h1).trans (reanalyze_types h2)
  · cases h; exact .refl

theorem convertReturn_types {env : FnEnv} {s s' : FnState} {ns : List String} {diag : QName} {soph : Sophistication}
    {ty : Option Ty} {r : Except Err ReturnAnalysis} (h : convertReturn env s ns diag soph ty = .done (s', r)) :
    TypesConverted env s s' := by
  cases ty with
  | none => cases h; exact .refl
  | some ty =>
    rw [convertReturn] at h
    obtain ⟨⟨s1, x⟩, h1, h⟩ := PassRun.bind_done.1 h
    refine Relation.ReflTransGen.trans (.single ⟨_, _, _, h1⟩) ?_
    cases x with
    | error e => cases h; exact .refl
    | ok a =>
      dsimp only at h
      split at h
      · split at h
        · cases h
        · split at h
          · split at h <;> cases h
            exact .refl
          · rw [valueReturn] at h
            split at h
            · obtain ⟨⟨s2, y⟩, h2, h⟩ := PassRun.bind_done.1 h
              have e : s2 = s' := by cases y <;> cases h <;> rfl
              subst e
              exact convertFnArg_types h2
            · cases h; exact .refl
      · split at h <;> cases h
        exact .refl

/-- Deciding what a function is changes only the count of overloads. -/
theorem decideKind_state {env : FnEnv} {s s' : FnState} {ns : List String} {f : FuncToConvert} {ideal : String}
    {pre : Option String} {selfTy : Option QName} {isStatic : Bool} {recv : Option ReceiverMutability} {ref : Bool}
    {kn : KindAndName} (h : decideKind env s ns f ideal pre selfTy isStatic recv ref = .done (s', kn)) :
    s' = { s with overloads := s'.overloads } := by
  have ho : ∀ (ns : List String) (ty : Option String) (n : String),
      (overloadName s ns ty n).1 = { s with overloads := (overloadName s ns ty n).1.overloads } := fun _ _ _ => rfl
  have hm : ∀ (ty : Ident) (n : String),
      (methodName s ns ty pre n).1 = { s with overloads := (methodName s ns ty pre n).1.overloads } := by
    intro ty n; cases pre <;> rfl
  rw [decideKind.eq_def] at h
  split at h
  · rw [traitKind.eq_def] at h
    split at h
    · split at h
      · cases h
      · cases h; rfl
    · cases h; rfl
    · cases h; rfl
  · split at h
    · dsimp only at h
      split at h
      · cases h; exact hm _ _
      · rw [copyMoveKind.eq_def] at h
        dsimp only at h
        split at h
        · cases h; exact hm _ _
        · split at h <;> cases h <;> exact hm _ _
      · cases h; exact hm _ _
      · rw [plainMethodKind.eq_def] at h
        split at h
        · cases h; exact hm _ _
        · split at h
          · cases h; exact hm _ _
          · split at h
            · cases h
            · cases h; exact hm _ _
    · cases h; rfl

/-- The name a function asks for in the bridge. -/
def bridgeRequest (name : ApiName) (a : FnAnalysis) : BridgeReq :=
  { ty := a.kind.bridgeTy, found := a.rustName, ns := name.name.ns }

/-- The analysis of a function changes the state in four steps, one of which is the request for a name in the bridge. -/
theorem analyze_state {env : FnEnv} {s s' : FnState} {name n : ApiName} {f : FuncToConvert} {soph : Sophistication}
    {pre : Option String} {a : FnAnalysis} (h : analyzeForeignFn env s name f soph pre = .done (s', a, n)) :
    ∃ s1 s2 s3 s4, TypesConverted env s s1 ∧ s2 = { s1 with overloads := s2.overloads } ∧ TypesConverted env s2 s3 ∧
      s4 = { s3 with bridge := (s3.bridge.getName (bridgeRequest name a)).1 } ∧ TypesConverted env s4 s' := by
  obtain ⟨t⟩ := analyze_steps h
  refine ⟨t.s1, t.s2, t.s3, t.s4, t.hparams.types, decideKind_state t.hkind, reanalyzeParams_types t.hre, ?_, ?_⟩
  · have hb := congrArg Prod.fst t.hbridge
    dsimp only at hb
    rw [bridgeRequest, t.kind_eq, t.name_eq, hb]
    exact t.hs4
  · rcases t.hret with ⟨h, _⟩ | ⟨e, h, _, _⟩ <;> exact convertReturn_types h

/-- Anything which is kept by conversions of types and changes of the counts is kept. -/
theorem analyze_keeps {env : FnEnv} {P : FnState → Prop}
    (hb : ∀ {s s' ns ty r}, convertBoxed env s ns ty = .done (s', r) → P s → P s')
    (ho : ∀ s o, P s → P { s with overloads := o }) (hn : ∀ s b, P s → P { s with bridge := b })
    {s s' : FnState} {name n : ApiName} {f : FuncToConvert} {soph : Sophistication}
    {pre : Option String} {a : FnAnalysis} (h : analyzeForeignFn env s name f soph pre = .done (s', a, n)) (hs : P s) :
    P s' := by
  have ht : ∀ {s s'}, TypesConverted env s s' → P s → P s' := by
    intro s s' h
    induction h with
    | refl => exact id
    | tail _ h ih => obtain ⟨_, _, _, h⟩ := h; exact fun hp => hb h (ih hp)
  obtain ⟨s1, s2, s3, s4, h1, h2, h3, h4, h5⟩ := analyze_state h
  have p2 : P s2 := by rw [h2]; exact ho _ _ (ht h1 hs)
  have p4 : P s4 := by rw [h4]; exact hn _ _ (ht h3 p2)
  exact ht h5 p4

theorem types_bridge {env : FnEnv} {s s' : FnState} (h : TypesConverted env s s') :
    s'.bridge = s.bridge ∧ s'.traitNames = s.traitNames := by
  induction h with
  | refl => exact ⟨rfl, rfl⟩
  | tail _ h ih =>
    obtain ⟨_, _, _, h⟩ := h
    obtain ⟨st, _, e | ⟨a, _, e⟩⟩ := convertBoxed_inv h <;> rw [e] <;> exact ih

theorem analyze_bridge {env : FnEnv} {s s' : FnState} {name n : ApiName} {f : FuncToConvert} {soph : Sophistication}
    {pre : Option String} {a : FnAnalysis} (h : analyzeForeignFn env s name f soph pre = .done (s', a, n)) :
    s'.bridge = (s.bridge.getName (bridgeRequest name a)).1 ∧ s'.traitNames = s.traitNames := by
  obtain ⟨s1, s2, s3, s4, h1, h2, h3, h4, h5⟩ := analyze_state h
  have e1 := types_bridge h1
  have e2 : s2.bridge = s1.bridge ∧ s2.traitNames = s1.traitNames := by rw [h2]; exact ⟨rfl, rfl⟩
  have e3 := types_bridge h3
  have e4 : s4.bridge = (s3.bridge.getName (bridgeRequest name a)).1 ∧ s4.traitNames = s3.traitNames := by
    rw [h4]; exact ⟨rfl, rfl⟩
  have e5 := types_bridge h5
  rw [e5.1, e4.1, e3.1, e2.1, e1.1, e5.2, e4.2, e3.2, e2.2, e1.2]
  exact ⟨rfl, rfl⟩

/-- The name in the bridge is the one the tracker gives, or that of a wrapper made from it. -/
theorem analyze_bridgeName {env : FnEnv} {s s' : FnState} {name n : ApiName} {f : FuncToConvert} {soph : Sophistication}
    {pre : Option String} {a : FnAnalysis} (h : analyzeForeignFn env s name f soph pre = .done (s', a, n)) :
    a.cxxbridgeName = if a.cppWrapper.isSome then wrapperName env (s.bridge.getName (bridgeRequest name a)).2
      else (s.bridge.getName (bridgeRequest name a)).2 := by
  obtain ⟨t⟩ := analyze_steps h
  have hb := congrArg Prod.snd t.hbridge
  dsimp only at hb
  have e1 := types_bridge t.hparams.types
  have e2 : t.s2.bridge = t.s1.bridge := by rw [decideKind_state t.hkind]
  have e3 := types_bridge (reanalyzeParams_types t.hre)
  rw [e3.1, e2, e1.1, ← t.kind_eq, ← t.name_eq] at hb
  obtain ⟨w, final, _, hw, hf, _, _, hn, ha⟩ := finish_inv t.hfin
  have e : a.cxxbridgeName = final := by rw [ha]
  have e' : a.cppWrapper.isSome = w := by rw [ha]; cases w <;> rfl
  rw [e, e', hf]
  show _ = if w = true then wrapperName env (s.bridge.getName (bridgeRequest name a)).2 else _
  rw [show s.bridge.getName (bridgeRequest name a) =
    s.bridge.getName { ty := a.kind.bridgeTy, found := a.rustName, ns := name.name.ns } from rfl, hb]

/-- Only instantiations of templates are added. -/
def FnState.ExtraOk (s : FnState) : Prop :=
  s.extra.Inv ∧ ∀ x ∈ s.extra.apis, IsInstantiation x ∨ x.IsDup

theorem analyze_extra {env : FnEnv} {s s' : FnState} {name n : ApiName} {f : FuncToConvert} {soph : Sophistication}
    {pre : Option String} {a : FnAnalysis} (h : analyzeForeignFn env s name f soph pre = .done (s', a, n))
    (hs : s.ExtraOk) : s'.ExtraOk := by
  refine analyze_keeps (P := FnState.ExtraOk) ?_ (fun _ _ h => h) (fun _ _ h => h) h hs
  intro s s' ns ty r h hs
  obtain ⟨st, _, rfl | ⟨a, hc, rfl⟩⟩ := convertBoxed_inv h
  · exact hs
  · exact extend_extraOk hs.1 hs.2 _ fun x hx => (convert_extra_inst _ _ _ _ _ _ _ _ hc x hx).1

theorem analyze_grows {env : FnEnv} {s s' : FnState} {name n : ApiName} {f : FuncToConvert} {soph : Sophistication}
    {pre : Option String} {a : FnAnalysis} (h : analyzeForeignFn env s name f soph pre = .done (s', a, n)) :
    Grows s.concretes s'.concretes := by
  refine analyze_keeps (P := fun x => Grows s.concretes x.concretes) ?_ (fun _ _ h => h) (fun _ _ h => h) h .refl
  intro s s' ns ty r h hs
  obtain ⟨st, g, rfl | ⟨a, hc, rfl⟩⟩ := convertBoxed_inv h <;> exact hs.trans g

end Verif
