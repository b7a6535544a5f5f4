import Verif.FnTotalProps
import Verif.SubFnProps
import Verif.BindTotalProps
import Verif.CppSafeProps
import Verif.ImplicitSound

/-!
# The analysis of all functions does not panic
-/

set_option autoImplicit false

namespace Verif

open ApiVec

/-! ### Errors in types -/

/-- Not the error for assignment operators. -/
def Unassigned {α : Type} (r : CRes α) : Prop := r ≠ .err .assignmentOperator

theorem Unassigned.thenDo {α β : Type} {r : Concretes × CRes α} {f : Concretes → α → Concretes × CRes β}
    (h : Unassigned r.2) (hf : ∀ st a, Unassigned (f st a).2) : Unassigned (thenDo r f).2 := by
  obtain ⟨st, r⟩ := r
  cases r with
  | ok a => exact hf st a
  | err e => exact fun he => h (by rw [Verif.thenDo] at he; cases he; rfl)
  | panic => exact fun he => by cases he
  | outOfFuel => exact fun he => by cases he

mutual
theorem typeToCpp_unassigned (m : CppNameMap) : ∀ (t : Ty), m.typeToCpp t ≠ .err .assignmentOperator
  | .path segs args => by
    rw [CppNameMap.typeToCpp.eq_def]
    dsimp only
    split
    · exact fun h => by cases h
    · split
      · cases args with
        | nil => exact fun h => by cases h
        | cons a r => exact typeToCpp_unassigned m a
      · cases args with
        | nil => exact fun h => by cases h
        | cons a r =>
          dsimp only
          have h1 := typeToCpp_unassigned m a
          have h2 := typesToCpp_unassigned m r
          cases ha : m.typeToCpp a with
          | panic => exact fun h => by cases h
          | err e => exact fun h => h1 (by rw [ha]; cases h; rfl)
          | ok s =>
            simp only [Outcome.bind]
            cases hr : m.typesToCpp r with
            | panic => exact fun h => by cases h
            | err e => exact fun h => h2 (by rw [hr]; cases h; rfl)
            | ok ss => exact fun h => by cases h
  | .ref mu lt e => by
    rw [CppNameMap.typeToCpp.eq_def]
    dsimp only
    have h1 := typeToCpp_unassigned m e
    split
    · exact fun h => by cases h
    · cases ha : m.typeToCpp e with
      | panic => exact fun h => by cases h
      | err e => exact fun h => h1 (by rw [ha]; cases h; rfl)
      | ok s => exact fun h => by cases h
  | .ptr mu e => by
    rw [CppNameMap.typeToCpp.eq_def]
    dsimp only
    have h1 := typeToCpp_unassigned m e
    cases ha : m.typeToCpp e with
    | panic => exact fun h => by cases h
    | err e => exact fun h => h1 (by rw [ha]; cases h; rfl)
    | ok s => exact fun h => by cases h
  | .array _ _ => by rw [CppNameMap.typeToCpp.eq_def]; exact fun h => by cases h
  | .other _ => by rw [CppNameMap.typeToCpp.eq_def]; exact fun h => by cases h
theorem typesToCpp_unassigned (m : CppNameMap) : ∀ (l : List Ty), m.typesToCpp l ≠ .err .assignmentOperator
  | [] => by rw [CppNameMap.typesToCpp.eq_def]; exact fun h => by cases h
  | a :: r => by
    rw [CppNameMap.typesToCpp.eq_def]
    dsimp only
    have h1 := typeToCpp_unassigned m a
    have h2 := typesToCpp_unassigned m r
    cases ha : m.typeToCpp a with
    | panic => exact fun h => by cases h
    | err e => exact fun h => h1 (by rw [ha]; cases h; rfl)
    | ok s =>
      simp only [Outcome.bind]
      cases hr : m.typesToCpp r with
      | panic => exact fun h => by cases h
      | err e => exact fun h => h2 (by rw [hr]; cases h; rfl)
      | ok ss => exact fun h => by cases h
end

theorem templated_unassigned (m : CppNameMap) (st : Concretes) (t : Ty) : Unassigned (templatedTypename m st t).2 := by
  rw [templatedTypename]
  have h := typeToCpp_unassigned m t
  split
  · rename_i e he
    exact fun hx => h (by rw [he]; cases hx; rfl)
  · exact fun h => by cases h
  · split
    · exact fun h => by cases h
    · dsimp only
      split <;> exact fun h => by cases h

theorem resolveLoop_unassigned (m : AMap QName Ty) : ∀ n enc tn prev, Unassigned (resolveLoop m n enc tn prev)
  | 0, _, _, _ => fun h => by cases h
  | n + 1, enc, tn, prev => by
    rw [resolveLoop]
    split
    · split
      · exact fun h => by cases h
      · split
        · exact fun h => by cases h
        · split
          · exact fun h => by cases h
          · exact resolveLoop_unassigned m n _ _ _
    · exact fun h => by cases h
    · exact fun h => by cases h

theorem resolvePath_unassigned (env : ConvEnv) (segs : List String) (args : List Ty) (q : QName) :
    Unassigned (resolvePath env segs args q) := by
  rw [resolvePath]
  have h : Unassigned (resolveTypedef env.typedefs q) := resolveLoop_unassigned _ _ _ _ _
  cases hr : resolveTypedef env.typedefs q with
  | err e => rw [hr] at h; exact fun hx => h (by cases hx; rfl)
  | panic => exact fun h => by cases h
  | outOfFuel => exact fun h => by cases h
  | ok r =>
    rw [CRes.bind.eq_def]
    dsimp only
    split
    · exact fun h => by cases h
    · split <;> exact fun h => by cases h
    · exact fun h => by cases h
    · exact fun h => by cases h

theorem convertArgs_unassigned {f : Concretes → Ty → Concretes × CRes (Annotated Ty)}
    (hf : ∀ st t, Unassigned (f st t).2) : ∀ (l : List Ty) (st : Concretes), Unassigned (convertArgs f st l).2
  | [], _ => fun h => by cases h
  | t :: r, st => by
    rw [convertArgs]
    exact (hf st t).thenDo fun st a => (convertArgs_unassigned hf r st).thenDo fun st b => fun h => by cases h

theorem confirmPayload_unassigned (env : ConvEnv) (desc : QName) (b : CxxGenericType) : ∀ (l : List Ty),
    Unassigned (confirmPayload env desc b l)
  | [] => fun h => by cases h
  | .path segs args :: r => by
    rw [confirmPayload]
    have ih := confirmPayload_unassigned env desc b r
    split
    · exact fun h => by cases h
    · split
      · exact fun h => by cases h
      · split
        · split
          · exact fun h => by cases h
          · split
            · exact fun h => by cases h
            · split <;> exact fun h => by cases h
        · split
          · exact fun h => by cases h
          · exact ih
        · split
          · exact fun h => by cases h
          · split
            · exact fun h => by cases h
            · exact ih
        · exact ih
  | .ref .. :: _ => fun h => by cases h
  | .ptr .. :: _ => fun h => by cases h
  | .array .. :: _ => fun h => by cases h
  | .other _ :: _ => fun h => by cases h

theorem convertGeneric_unassigned {f : Concretes → Ty → Concretes × CRes (Annotated Ty)}
    (hf : ∀ st t, Unassigned (f st t).2) (env : ConvEnv) (ctx : ConvCtx) (st : Concretes) (tn : QName)
    (segs : List String) (args : List Ty) (deps : List QName) :
    Unassigned (convertGeneric f env ctx st tn segs args deps).2 := by
  unfold convertGeneric
  split
  · exact fun h => by cases h
  · split
    · split
      · exact fun h => by cases h
      · split
        · exact fun h => by cases h
        · split
          · exact fun h => by cases h
          · exact (templated_unassigned _ _ _).thenDo fun st r => fun h => by cases h
    · refine (convertArgs_unassigned hf _ _).thenDo fun st inner => ?_
      have h := confirmPayload_unassigned env tn (cxxGenericBehavior tn) inner.ty
      split
      · exact fun h => by cases h
      · rename_i e he
        rw [he] at h
        exact fun hx => h (by cases hx; rfl)
      · exact fun h => by cases h
      · exact fun h => by cases h

theorem ensurePointee_unassigned (t : Ty) : Unassigned (ensurePointee t) := by
  cases t <;> exact fun h => by cases h

theorem finishPath_unassigned (env : ConvEnv) (ctx : ConvCtx) (a : Annotated Ty) : Unassigned (finishPath env ctx a) := by
  rw [finishPath.eq_def]
  split
  · split
    · exact fun h => by cases h
    · split
      · exact fun h => by cases h
      · split <;> exact fun h => by cases h
  · exact fun h => by cases h

theorem plainPath_unassigned {f : Concretes → Ty → Concretes × CRes (Annotated Ty)}
    (hf : ∀ st t, Unassigned (f st t).2) (env : ConvEnv) (ns : List String) (ctx : ConvCtx) (st : Concretes)
    (segs : List String) (args : List Ty) : Unassigned (convertPlainPath f env ns ctx st segs args).2 := by
  rw [convertPlainPath]
  refine Unassigned.thenDo ?_ fun st segs => ?_
  · dsimp only
    rw [qualifyPath.eq_def]
    split
    · exact fun h => by cases h
    · split
      · exact fun h => by cases h
      · split
        · exact fun h => by cases h
        · split
          · exact fun h => by cases h
          · split
            · exact fun h => by cases h
            · split <;> exact fun h => by cases h
  · split
    · exact fun h => by cases h
    · refine Unassigned.thenDo ?_ fun st _ => ?_
      · dsimp only
        rw [checkTypeName.eq_def]
        split
        · exact fun h => by cases h
        · exact fun h => by cases h
        · split <;> exact fun h => by cases h
      · refine Unassigned.thenDo (resolvePath_unassigned _ _ _ _) fun st r => ?_
        split
        · exact fun h => by cases h
        · exact convertGeneric_unassigned hf _ _ _ _ _ _ _

/-- No type is refused for being an assignment operator. -/
theorem convert_unassigned (env : ConvEnv) (ns : List String) : ∀ (n : Nat) (ctx : ConvCtx) (st : Concretes) (ty : Ty),
    Unassigned (convertType env ns n ctx st ty).2
  | 0, _, _, _ => fun h => by rw [convertType] at h; cases h
  | n + 1, ctx, st, ty => by
    have ih := convert_unassigned env ns n
    rw [convertType.eq_def]
    dsimp only
    split
    · split
      · exact ih _ _ _
      · split
        · exact ih _ _ _
        · split
          · exact (ih _ _ _).thenDo fun st a => fun h => by cases h
          · split
            · exact (Unassigned.thenDo (ensurePointee_unassigned _)) fun st _ =>
                (ih _ _ _).thenDo fun st a => fun h => by cases h
            · exact (plainPath_unassigned (ih _) _ _ _ _ _ _).thenDo fun st a => finishPath_unassigned _ _ _
    · exact (ih _ _ _).thenDo fun st a => fun h => by cases h
    · exact (ih _ _ _).thenDo fun st a => fun h => by cases h
    · exact (Unassigned.thenDo (ensurePointee_unassigned _)) fun st _ =>
        (ih _ _ _).thenDo fun st a => fun h => by cases h
    · exact fun h => by cases h

theorem named_unassigned {env : FnEnv} {s s' : FnState} {ns : List String} {m : ArgMode} {name : Ident} {ty : Ty}
    {self : Option (QName × ReceiverMutability)} {into : Bool} {e : Err}
    (h : convertNamedArg env s ns m name ty self into = .done (s', .error e)) : e ≠ .assignmentOperator := by
  obtain ⟨st, hc, -⟩ := namedArg_err h
  have hu := convert_unassigned env.conv ns env.fuel .outerType s.concretes ty
  rw [hc] at hu
  exact fun he => hu (by rw [he])

theorem return_unassigned {env : FnEnv} {s s' : FnState} {ns : List String} {diag : QName} {soph : Sophistication}
    {out : Option Ty} {e : Err} (h : convertReturn env s ns diag soph out = .done (s', .error e)) :
    e ≠ .assignmentOperator := by
  cases out with
  | none => cases h
  | some ty =>
    rw [convertReturn] at h
    obtain ⟨⟨s1, r⟩, h1, h2⟩ := PassRun.bind_done.1 h
    dsimp only at h2
    cases r with
    | error e' =>
      cases h2
      obtain ⟨st, hc, -⟩ := convertBoxed_err h1
      have hu := convert_unassigned env.conv ns env.fuel .outerType s.concretes ty
      rw [hc] at hu
      exact fun he => hu (by rw [he])
    | ok a =>
      dsimp only at h2
      split at h2
      · split at h2
        · cases h2
        · split at h2
          · split at h2 <;> cases h2
          · unfold valueReturn at h2
            split at h2
            · obtain ⟨⟨s2, r⟩, h3, h4⟩ := PassRun.bind_done.1 h2
              dsimp only at h4
              cases r with
              | ok p => cases h4
              | error e' =>
                cases h4
                rw [convertFnArg, if_neg (by decide)] at h3
                split at h3
                · cases h3
                · cases h3; exact fun h => by cases h
                · exact named_unassigned h3
            · cases h2
      · split at h2 <;> cases h2

/-! ### Assignment operators -/

/-- A member which makes an object from another, or destroys one. -/
def MakesOrDestroys (f : FuncToConvert) : Prop :=
  f.specialMember = some .copyConstructor ∨ f.specialMember = some .moveConstructor ∨ f.specialMember = some .destructor

/-- The C++ name of what is outside namespaces begins well, and is not `Pin`. -/
def CppNamed (n : ApiName) : Prop := n.name.ns = [] → ∀ c, n.cppName = some c → leadsWell c.toList = true ∧ c ≠ "Pin"

theorem cppNamed_none {n : ApiName} (h : n.cppName = none) : CppNamed n := fun _ c hc => by rw [h] at hc; cases hc

/-- The C++ constructor of a subclass. -/
def ImplSafe (d : CppFunction) : Prop :=
  (∀ c ∈ d.argumentConversion, ArgSafe c) ∧ d.returnConversion = none ∧ ∀ ns id, d.payload ≠ .placementNew ns id

/-- The C++ of an override. -/
def OverrideSafe (d : CppFunction) : Prop :=
  CppFit d.argumentConversion d.returnConversion ∧ (∀ c ∈ d.argumentConversion, TurnsOrMoves c) ∧
    (∀ c, d.returnConversion = some c → c.inverse ≠ none) ∧ ∀ ns id, d.payload ≠ .placementNew ns id

/-- `this` comes first, assignment operators have it and are not named like their class, and constructors return nothing. -/
structure FnShape (nested : AMap QName String) (name : ApiName) (f : FuncToConvert) : Prop where
  first : (∃ t, .typed "this" t ∈ f.inputs) → ∃ mu e l, f.inputs = .typed "this" (.ptr mu e) :: l
  assign : f.specialMember = some .assignmentOperator → (∃ t, .typed "this" t ∈ f.inputs) ∧
    ∀ q, ClassOf f q → ∀ ideal, idealRustName f.ident name.cppName = .done ideal →
      constructorWithSuffix ideal ((AMap.get? nested q).getD q.name) = none
  noResult : MakesOrDestroys f → f.output = none
  named : CppNamed name
  /-- No special body builds an object in a place. -/
  made : ∀ b k, f.syntheticCpp = some (b, k) → ∀ ns id, b ≠ .placementNew ns id
  /-- C++ for the constructor of a subclass can be made. -/
  peer : ∀ sub tr impl, f.provenance = .synthesizedSubclassConstructor sub tr impl → ImplSafe impl

theorem decideKind_ctor {env : FnEnv} {s s2 : FnState} {ns : List String} {f : FuncToConvert} {ideal : String}
    {pre : Option String} {self : Option QName} {st : Bool} {recv : Option ReceiverMutability} {second : Bool}
    {kn : KindAndName} (h : decideKind env s ns f ideal pre self st recv second = .done (s2, kn)) {b : Bool} {q : QName}
    (hk : kn.kind = .method (.constructor b) q) : self = some q ∧ f.specialMember ≠ some .moveConstructor ∧
      (f.specialMember = some .copyConstructor ∨
        constructorWithSuffix ideal ((AMap.get? env.nested q).getD q.name) ≠ none) := by
  unfold decideKind at h
  split at h
  · unfold traitKind at h
    split at h
    · split at h
      · cases h
      · cases h; cases hk
    · cases h; cases hk
    · cases h; cases hk
  · split at h
    · dsimp only at h
      split at h
      · cases h; cases hk
      · rename_i hs
        rw [hs]
        unfold copyMoveKind at h
        simp only [Bool.false_eq_true, if_false, PassRun.done.injEq] at h
        have hkind := congrArg (·.2.kind) h
        dsimp only at hkind
        rw [hk] at hkind
        split at hkind
        · cases hkind
        · cases hkind
          exact ⟨rfl, (fun h => by cases h), .inl rfl⟩
      · cases h; cases hk
      · rename_i h1 _ _
        unfold plainMethodKind at h
        split at h
        · rename_i suffix hs
          cases h
          cases hk
          exact ⟨rfl, h1, .inr (by rw [hs]; exact fun h => by cases h)⟩
        · split at h
          · cases h; cases hk
          · split at h
            · cases h
            · cases h
              dsimp only at hk
              split at hk <;> cases hk
    · cases h; cases hk

theorem reference_unassigned {n : String} {r : ReturnAnalysis} {ps : List ArgumentAnalysis} :
    referenceProblem n r ps ≠ some .assignmentOperator := by
  unfold referenceProblem laterErr
  dsimp only
  split
  · split
    · exact fun h => by cases h
    · split
      · exact fun h => by cases h
      · split
        · split
          · exact fun h => by cases h
          · split <;> exact fun h => by cases h
        · exact fun h => by cases h
  · split
    · split
      · exact fun h => by cases h
      · split <;> exact fun h => by cases h
    · exact fun h => by cases h

theorem laterErr_kept {a b : Option Err} (h : a ≠ none ∧ a ≠ some .assignmentOperator) (hb : b ≠ some .assignmentOperator) :
    laterErr a b ≠ none ∧ laterErr a b ≠ some .assignmentOperator := by
  cases b with
  | none => exact h
  | some e => exact ⟨(fun h => by cases h), hb⟩

theorem memberOf_assignment {f : FuncToConvert} {a : FnAnalysis} {c : QName} (h : memberOf f a = some (c, .assignment)) :
    f.specialMember = some .assignmentOperator ∧ ∃ k, a.kind = .method k c := by
  unfold memberOf at h
  split at h
  · rename_i k q hk
    split at h
    · rename_i hs
      cases h
      exact ⟨hs, k, hk⟩
    · split at h
      · cases h
      · split at h <;> cases h
  · cases h
  · cases h
  · cases h
  · cases h

/-- Where an assignment operator takes an rvalue reference its object is understood, or the operator is not looked at. -/
theorem not_misshapen {env : FnEnv} {s s' : FnState} {name n : ApiName} {f : FuncToConvert} {soph : Sophistication}
    {pre : Option String} {a : FnAnalysis} (hf : FnShape env.nested name f)
    (h : analyzeForeignFn env s name f soph pre = .done (s', a, n)) : ¬ MisshapenAssignment (.function n f a) := by
  rintro ⟨_, _, _, c, he, hm, hr, -, hp⟩
  cases he
  obtain ⟨hs, k, hk⟩ := memberOf_assignment hm
  obtain ⟨hthis, hname⟩ := hf.assign hs
  obtain ⟨mu, e, l, hi⟩ := hf.first hthis
  obtain ⟨t⟩ := analyze_steps h
  have hkn : t.kn.kind = .method k c := by rw [← t.kind_eq]; exact hk
  have hnc : ∀ b, k ≠ .constructor b := by
    rintro b rfl
    obtain ⟨hc, -, h1 | h1⟩ := decideKind_ctor t.hkind hkn
    · rw [hs] at h1; cases h1
    · exact h1 (hname c (t.self_class hc) _ t.hideal)
  have hps : t.ps' = t.ps ∧ t.e = none := by
    have := t.hre
    rw [hkn, reanalyzeParams.eq_def] at this
    dsimp only at this
    split at this
    · rename_i hx; cases hx; exact absurd rfl (hnc _)
    · rename_i hx; cases hx
    · rename_i hx; cases hx
    · rename_i hx; cases hx
    · simp only [PassRun.done.injEq, Prod.mk.injEq] at this
      exact ⟨this.2.1.symm, this.2.2.symm⟩
  obtain ⟨wrap, final, np, -, -, -, hnp, -, ha⟩ := finish_inv t.hfin
  have hpd : a.paramDetails = (t.ps' ++ t.ret.placement.toList).map (·.2) := congrArg (·.paramDetails) ha
  have hig := congrArg (·.ignoreReason) ha
  dsimp only at hig
  have hparams := t.hparams
  generalize hps1 : t.ps = ps1 at *
  generalize hbads : t.bads = bads at *
  generalize t.s1 = s1 at hparams
  rw [hi] at hparams
  cases hparams with
  | good hg _ =>
    rename_i p ps2 
    obtain ⟨nm, ty, self, into, hprep, hn⟩ := convertFnArg_ok hg
    obtain ⟨st, an, conv, -, -, -, rfl⟩ := convertNamedArg_ok hn
    have hself : self ≠ none := by
      cases hprep with
      | thisRef _ _ => exact fun h => by cases h
      | thisPtr _ _ => exact fun h => by cases h
      | other hne _ => exact absurd rfl hne
    rw [hpd, hps.1] at hp
    exact hself (hp _ rfl)
  | bad hb _ =>
    have hsig := t.hsig
    rw [hbads] at hsig
    have he' : t.e' ≠ none ∧ t.e' ≠ some .assignmentOperator := by
      rw [signatureProblem, chainProblem] at hsig
      have hx := (Option.some.inj hsig).symm
      rw [hx]
      exact ⟨(fun h => by cases h), fun h => by cases h⟩
    have h1 : laterErr t.e t.e' ≠ none ∧ laterErr t.e t.e' ≠ some .assignmentOperator := by
      rw [hps.2]
      cases hx : t.e' with
      | none => exact absurd hx he'.1
      | some x => rw [hx] at he'; exact he'
    have h2 : t.e'' ≠ some .assignmentOperator := by
      rcases t.hret with ⟨-, h⟩ | ⟨e, h, -, h3⟩
      · rw [h]; exact fun h => by cases h
      · rw [h3]; exact fun hx => return_unassigned h (Option.some.inj hx)
    have h3 : np ≠ some .assignmentOperator := by
      intro hx
      obtain ⟨x, -, hx⟩ := hnp _ hx
      cases hx
    have h4 := laterErr_kept (laterErr_kept (laterErr_kept h1 h2)
      (reference_unassigned (n := t.kn.rustName) (r := t.ret) (ps := (t.ps' ++ t.ret.placement.toList).map (·.2)))) h3
    rw [hig] at hr
    generalize laterErr (laterErr (laterErr (laterErr t.e t.e') t.e'')
      (referenceProblem t.kn.rustName t.ret ((t.ps' ++ t.ret.placement.toList).map (·.2)))) np = o at h4 hr
    cases o with
    | none => exact h4.1 rfl
    | some x =>
      rcases hr with hr | hr
      · cases hr
      · exact h4.2 (by simpa using hr)

/-! ### Virtual methods -/

/-- What the analyser knows about classes and subclasses. -/
structure GoodPass (env : FnEnv) : Prop where
  known : GoodFnEnv env
  fit : FitTypedefs env
  nested : ∀ q x, AMap.get? env.nested q = some x → GoodName x ∧ x ≠ "Pin"
  subs : ∀ sup l, AMap.get? env.subclasses sup = some l → ∀ sub ∈ l, GoodQ sub.name

/-- What is known of a function which was analysed. -/
structure Done (f : FuncToConvert) (a : FnAnalysis) : Prop where
  inputs : ∀ i ∈ f.inputs, GoodInput i
  output : ∀ t, f.output = some t → GoodTy t
  ctor : a.kind.constructorOf ≠ none →
    f.specialMember ≠ some .moveConstructor ∧ f.specialMember ≠ some .assignmentOperator ∧
      ∃ mu e l, f.inputs = .typed "this" (.ptr mu e) :: l
  noResult : MakesOrDestroys f → f.output = none
  bind : a.ignoreReason = none → Bindable a
  cpp : CppFit (a.paramDetails.map (·.conversion)) a.retConversion
  wrapper : a.ignoreReason = none → ∀ w, a.cppWrapper = some w →
    CppFit w.argumentConversion w.returnConversion ∧ BuildsInPlace w
  peer : ∀ sub tr impl, f.provenance = .synthesizedSubclassConstructor sub tr impl → ImplSafe impl

/-- The parts of a name are identifiers. -/
def Idents (q : QName) : Prop := ∀ x ∈ q.segs, isIdentText x = true

/-- What analysing a function can give. -/
def MadeKind {T S : Type} : Api T S FnAnalysis → Prop
  | .function n f a => Done f a ∧ ¬ MisshapenAssignment (.function n f a) ∧ Idents n.name
  | .struct .. => False
  | .rustSubclassFn _ _ d => SubFit d.params d.ret ∧ OverrideSafe d.cppImpl
  | .subclassTraitItem _ d => d.params ≠ []
  | .concreteType _ r _ => ∀ t, r = some t → GoodTy t
  | _ => True

/-- What there can be once a function was analysed. -/
def MadeOk {T S : Type} (x : Api T S FnAnalysis) : Prop := CppNamed x.nameInfo ∧ MadeKind x

theorem marker_ok {T S : Type} (q : QName) : MadeOk (duplicateMarker q : Api T S FnAnalysis) := ⟨cppNamed_none rfl, trivial⟩

theorem analysed_done {S : Type} {env : FnEnv} {s s' : FnState} {name n : ApiName} {f : FuncToConvert} {soph : Sophistication}
    {pre : Option String} {a : FnAnalysis} (hp : GoodPass env) (hf : GoodFn env.nested name f)
    (hsh : FnShape env.nested name f) (hpre : ∀ p, pre = some p → isIdentText p = true) (hs : GoodState s)
    (h : analyzeForeignFn env s name f soph pre = .done (s', a, n)) (hfa : AnalysisFacts s name f (s', a, n)) :
    MadeOk (.function n f a : Api TypedefAnalysis S FnAnalysis) := by
  have hcpp : CppFit (a.paramDetails.map (·.conversion)) a.retConversion := by
    obtain ⟨t⟩ := analyze_steps h
    exact (t.cpp hp.known hp.fit hf hpre hs).1
  refine ⟨fun hns c hc => ?_, ⟨hf.inputs, hf.output, fun hc => ?_, hsh.noResult, fun hx => ?_, hcpp, fun hx w hw => ?_,
    hsh.peer⟩, not_misshapen hsh h, fun x hx => ?_⟩
  · have h1 := hfa.ns
    have h2 := hfa.cpp
    dsimp only at h1 h2
    exact hsh.named (by rw [← h1]; exact hns) c (by rw [← h2]; exact hc)
  rotate_left
  · obtain ⟨t⟩ := analyze_steps h
    refine t.bindable hx hp.known hp.fit hf hpre hs (fun ty hty => ?_) (fun hk => hsh.noResult ?_)
    · obtain ⟨mu, e, l, hi⟩ := hsh.first ⟨ty, hty⟩
      exact ⟨_, by rw [hi]; rfl⟩
    · obtain ⟨-, -, k1, k2⟩ := t.kind_facts hf hpre
      obtain ⟨q, d, hk | hk⟩ := hk
      · rcases k2 ⟨q, d, hk⟩ with h | h
        · exact .inl h
        · exact .inr (.inr h)
      · exact .inr (.inl (k1 ⟨q, d, hk⟩))
  · obtain ⟨hconv, hret, -⟩ := wrapper_conversions h hw
    refine ⟨by rw [hconv, hret]; exact hcpp, fun ns id hpl => ?_⟩
    obtain ⟨-, hd1, hd2⟩ := wrapper_does h hw
    cases hsyn : f.syntheticCpp with
    | some x => exact absurd (congrArg Prod.fst (hd1 x hsyn) ▸ hpl) (hsh.made x.1 x.2 hsyn ns id)
    | none =>
      have hdoes := hd2 hsyn
      obtain ⟨ps, rest, hdet, hal, hnp, -⟩ := params_and_place h hx
      have hwk : w.kind = .constructor ∧ f.inputs ≠ [] := by
        refine ⟨?_, built_in_place h ?_⟩ <;>
        · rw [hpl] at hdoes
          generalize w.kind = wk at hdoes ⊢
          generalize a.kind = ak at hdoes ⊢
          generalize name.name.ns = ns' at hdoes
          cases hdoes <;> first | rfl | exact .inl ⟨_, _, rfl⟩ | exact .inr (.inl ⟨_, _, rfl⟩) |
            exact .inr (.inr ⟨_, _, rfl⟩)
      refine ⟨by simp [CppFunction.isAMethod, hwk.1], ?_⟩
      cases ps with
      | nil => exact absurd (List.eq_nil_of_length_eq_zero hal.length_eq) hwk.2
      | cons p ps => exact ⟨p.conversion, by rw [hconv, hdet]; simp, hnp p (by simp)⟩
  · have h1 := hfa.ns
    have h2 := hfa.ident
    dsimp only at h1 h2
    rw [QName.segs, h1, List.mem_append, List.mem_singleton] at hx
    rcases hx with hx | rfl
    · exact (hf.ns x hx).1
    · exact h2
  have hfirst := hsh.first (hfa.ctor hc)
  obtain ⟨t⟩ := analyze_steps h
  rw [t.kind_eq, FnKind.constructorOf.eq_def] at hc
  split at hc
  · rename_i b q hk
    obtain ⟨hq, h1, h2⟩ := decideKind_ctor t.hkind hk
    refine ⟨h1, fun ha => ?_, hfirst⟩
    rcases h2 with h2 | h2
    · rw [ha] at h2; cases h2
    · exact h2 ((hsh.assign ha).2 q (t.self_class hq) _ t.hideal)
  · exact absurd rfl hc

theorem marker_kind {T S F : Type} (q : QName) : ∃ e c, (duplicateMarker q : Api T S F) = .ignoredItem (ApiName.ofQName q) e c :=
  ⟨_, _, rfl⟩

/-- All that was collected so far is good. -/
def VecOk {T S : Type} (v : ApiVec T S FnAnalysis) : Prop := v.Inv ∧ ∀ x ∈ v.apis, MadeOk x

theorem VecOk.push {T S : Type} {v : ApiVec T S FnAnalysis} (h : VecOk v) {a : Api T S FnAnalysis} (ha : MadeOk a) :
    VecOk (v.push a) := by
  refine ⟨push_inv h.1 a, fun x hx => ?_⟩
  rcases mem_push h.1 hx with hx | rfl | rfl
  · exact h.2 x hx
  · exact ha
  · exact marker_ok _

theorem VecOk.empty {T S : Type} : VecOk ({} : ApiVec T S FnAnalysis) := ⟨inv_empty, fun x hx => by cases hx⟩

theorem peer_good {sub : ApiName} (h : GoodQ sub.name) : GoodQ sub.cppPeer ∧ ¬ IsPin sub.cppPeer := by
  have hn : GoodName sub.name.name := h _ (by simp [QName.segs])
  refine ⟨?_, fun hp => ?_⟩
  · intro x hx
    simp only [QName.segs, ApiName.cppPeer, List.mem_append, List.mem_singleton] at hx
    rcases hx with hx | rfl
    · exact h x (by simp [QName.segs, hx])
    · refine ⟨ident_append hn.1 (by decide), ?_⟩
      rw [String.toList_append]
      exact leadsWell_append hn.2
  · have := congrArg (fun s : String => s.toList.getLast?) (isPin_name hp)
    simp [ApiName.cppPeer] at this

theorem super_safe {env : FnEnv} {f : FuncToConvert} {a : FnAnalysis} {name : ApiName} (hf : GoodFn env.nested name f)
    (hsh : FnShape env.nested name f) (hthis : ∃ t, .typed "this" t ∈ f.inputs) (hr : isIdentText a.rustName = true)
    {sub : ApiName} (hsub : GoodQ sub.name) {n : ApiName} (hns : n.name.ns = []) (hcpp : n.cppName = none) :
    GoodFn env.nested n (superFnWrapper sub (superFnName [] a.rustName) f) ∧
      FnShape env.nested n (superFnWrapper sub (superFnName [] a.rustName) f) := by
  have hp := peer_good hsub
  refine ⟨⟨?_, ?_, ?_, hf.inputs, hf.output, ?_, ?_, ?_, hf.alloc, ?_, ?_⟩,
    ⟨hsh.first, ?_, ?_, cppNamed_none hcpp, (fun b k h => by cases h), (fun sub tr impl h => by cases h)⟩⟩
  · rw [hns]; intro x hx; cases hx
  · exact ident_append hr (by decide)
  · rw [hcpp]; intro c hc; cases hc
  · intro q hq
    cases hq
    exact (hp.1 _ (by simp [QName.segs])).1
  · intro q hq
    cases hq
    exact hp
  · intro q m _ h; cases h
  · intro q _ h
    obtain ⟨t, ht⟩ := hthis
    exact absurd ht (h t)
  · intro h; cases h
  · intro h; cases h
  · rintro (h | h | h) <;> cases h

theorem addAnalysed_safe {S : Type} {env : FnEnv} (hp : GoodPass env) {name : ApiName} {f : FuncToConvert}
    (hf : GoodFn env.nested name f) (hsh : FnShape env.nested name f) {s : FnState} (hs : GoodState s)
    {results : ApiVec TypedefAnalysis S FnAnalysis} (hv : VecOk results) {soph : Sophistication} :
    Safe (fun r => GoodState r.1 ∧ VecOk r.2.1) (analyzeAndAdd env s name f results soph) := by
  rw [analyzeAndAdd]
  refine Safe.bind (analyze_safe hp.known hf hs (fun p h => by cases h)) fun ⟨s', a, n⟩ hr h => ?_
  exact .done ⟨h.steps.1, hv.push (analysed_done hp hf hsh (fun p h => by cases h) hs hr h)⟩

theorem me_good {sub : ApiName} (h : GoodQ sub.name) : GoodTy (.path [sub.holder] []) := by
  have hn : GoodName sub.name.name := h _ (by simp [QName.segs])
  have hne : ∀ x : String, x.toList.getLast? ≠ some 'r' → sub.holder ≠ x := by
    intro x hx he
    refine hx ?_
    rw [← he]
    simp [ApiName.holder]
  refine .path (q := ⟨[], sub.holder⟩) ?_ ?_ ?_ (fun a ha => by cases ha)
  · simp [QName.ofTypePath, QName.fromSegs, hne "root" (by decide), hne "output" (by decide)]
  · intro x hx
    simp only [QName.segs, List.nil_append, List.mem_singleton] at hx
    subst hx
    refine ⟨ident_append hn.1 (by decide), ?_⟩
    rw [ApiName.holder, String.toList_append]
    exact leadsWell_append hn.2
  · intro hp
    exact absurd (isPin_name hp) (hne "Pin" (by decide))

/-- The second analysis of a virtual method suits the generator of C++. -/
def SimpleSafe (a : FnAnalysis) : Prop :=
  CppFit (a.paramDetails.map (·.conversion)) a.retConversion ∧ (∀ p ∈ a.paramDetails, TurnsOrMoves p.conversion) ∧
    ∀ c, a.retConversion = some c → c.inverse ≠ none

theorem override_fit {policy : UnsafePolicy} {sub name : ApiName} {a : FnAnalysis} {recv : ReceiverMutability} {sup : QName}
    {deps : List QName} (hsub : GoodQ sub.name) (h : SubFit a.params a.retType)
    (hc : SimpleSafe a) : MadeOk (subclassFunction policy sub a name recv sup deps) := by
  refine ⟨cppNamed_none rfl, ⟨fun p hp => ?_, h.2⟩, ⟨fun c hx => ?_, hc.1.ret⟩, fun c hx => ?_, hc.2.2,
    (fun ns id h => by cases h)⟩
  rcases List.mem_cons.1 hp with rfl | hp
  · exact ⟨_, _, rfl, .ref (good_pathed (me_good hsub)) (good_namedAt (me_good hsub))⟩
  · exact h.1 p (List.mem_of_mem_drop hp)
  · obtain ⟨p, hp, rfl⟩ := List.mem_map.1 hx
    exact hc.1.args _ (List.mem_map_of_mem (List.mem_of_mem_drop hp))
  · obtain ⟨p, hp, rfl⟩ := List.mem_map.1 hx
    exact hc.2.1 p (List.mem_of_mem_drop hp)

theorem forSubclass_safe {env : FnEnv} (hp : GoodPass env) {f : FuncToConvert} {a simple : FnAnalysis} {name n : ApiName}
    (hf : GoodFn env.nested name f) (hsh : FnShape env.nested name f) (hthis : ∃ t, .typed "this" t ∈ f.inputs)
    (hr : isIdentText a.rustName = true) {recv : ReceiverMutability} {sup : QName} {sub : ApiName}
    (hsub : GoodQ sub.name) (hsim : SubFit simple.params simple.retType ∧ simple.params ≠ []) (hcs : SimpleSafe simple) {s : FnState}
    (hs : GoodState s) {results : ApiVec TypedefAnalysis PodAnalysis FnAnalysis} (hv : VecOk results) :
    Safe (fun r => GoodState r.1 ∧ VecOk r.2) (forSubclass env f a simple n recv sup sub s results) := by
  rw [forSubclass]
  dsimp only
  refine Safe.bind (P := fun r => GoodState r.1 ∧ VecOk r.2.1) ?_ fun ⟨s1, results, deps⟩ _ h => ?_
  · split
    · exact .done ⟨hs, hv⟩
    · obtain ⟨h1, h2⟩ := super_safe hf hsh hthis hr hsub (n := ApiName.ofQName (superFnName [] a.cxxbridgeName)) rfl rfl
      exact Safe.bind (addAnalysed_safe hp h1 h2 hs hv) fun ⟨s1, results, q⟩ _ h => .done h
  · have hv2 : VecOk (results.push (subclassFunction env.policy sub simple n recv sup deps)) :=
      h.2.push (override_fit hsub hsim.1 hcs)
    dsimp only
    split
    · exact .done ⟨h.1, hv2⟩
    · exact .done ⟨⟨h.1.concretes, h.1.inv, h.1.extra⟩, hv2.push ⟨cppNamed_none rfl, hsim.2⟩⟩

theorem forSubclasses_safe {env : FnEnv} (hp : GoodPass env) {f : FuncToConvert} {a simple : FnAnalysis} {name n : ApiName}
    (hf : GoodFn env.nested name f) (hsh : FnShape env.nested name f) (hthis : ∃ t, .typed "this" t ∈ f.inputs)
    (hr : isIdentText a.rustName = true) {recv : ReceiverMutability} {sup : QName}
    (hsim : SubFit simple.params simple.retType ∧ simple.params ≠ []) (hcs : SimpleSafe simple) :
    ∀ (subs : List ApiName), (∀ sub ∈ subs, GoodQ sub.name) → ∀ (s : FnState), GoodState s →
      ∀ (results : ApiVec TypedefAnalysis PodAnalysis FnAnalysis), VecOk results →
      Safe (fun r => GoodState r.1 ∧ VecOk r.2) (forSubclasses env f a simple n recv sup subs s results)
  | [], _, _, hs, _, hv => .done ⟨hs, hv⟩
  | sub :: l, hl, s, hs, results, hv => by
    rw [forSubclasses]
    refine Safe.bind (forSubclass_safe hp hf hsh hthis hr (hl sub List.mem_cons_self) hsim hcs hs hv) fun ⟨s1, results⟩ _ h => ?_
    exact forSubclasses_safe hp hf hsh hthis hr hsim hcs l (fun x hx => hl x (List.mem_cons_of_mem _ hx)) s1 h.1 results h.2

theorem subs_good {env : FnEnv} (hp : GoodPass env) {sup : QName} :
    ∀ sub ∈ (AMap.get? env.subclasses sup).getD [], GoodQ sub.name := by
  cases h : AMap.get? env.subclasses sup with
  | none => intro x hx; cases hx
  | some l => exact hp.subs sup l h

theorem fnAndSubclasses_safe {env : FnEnv} (hp : GoodPass env) {f : FuncToConvert} {name : ApiName}
    (hf : GoodFn env.nested name f) (hsh : FnShape env.nested name f) {s : FnState} (hs : GoodState s) :
    Safe (fun r => GoodState r.1 ∧ ∀ x ∈ r.2, MadeOk x) (analyzeFnAndSubclasses env s name f) := by
  rw [analyzeFnAndSubclasses]
  refine Safe.bind (analyze_safe hp.known hf hs (fun p h => by cases h)) fun ⟨s1, a, n⟩ hr h1 => ?_
  have hd := analysed_done (S := PodAnalysis) hp hf hsh (fun p h => by cases h) hs hr h1
  dsimp only
  cases hv : a.kind.virtualOf with
  | none =>
    refine .done ⟨h1.steps.1, ?_⟩
    intro x hx
    rw [List.mem_singleton.1 hx]
    exact hd
  | some x =>
    obtain ⟨sup, recv⟩ := x
    dsimp only
    obtain ⟨-, mu, t, hthis, -⟩ := virtual_object hr hv
    have hf2 : GoodFn env.nested n f := by
      refine ⟨?_, hf.ident, ?_, hf.inputs, hf.output, hf.self, hf.synth, hf.cast, hf.alloc, ?_, hf.move⟩
      · have := h1.ns; dsimp only at this; rw [this]; exact hf.ns
      · have := h1.cpp; dsimp only at this; rw [this]; exact hf.cpp
      · intro q _ h; exact absurd hthis (h _)
    refine Safe.bind (analyze_safe hp.known hf2 h1.steps.1 (fun p h => by cases h; exact h1.rust))
      fun ⟨s2, simple, n2⟩ hr2 h2 => ?_
    have hsim := virtual_again hr hr2 h1.ns .refl hp.known hp.fit hf hf2 (fun p h => by cases h)
      (fun p h => by cases h; exact h1.rust) hs h1.steps.1 hv
    have hcs : SimpleSafe simple := by
      obtain ⟨t⟩ := analyze_steps hr
      obtain ⟨t2⟩ := analyze_steps hr2
      have ho : OrdinaryFn f := decideKind_virtual t.hkind (by rw [← t.kind_eq]; exact hv)
      obtain ⟨c1, c2⟩ := t2.cpp hp.known hp.fit hf2 (fun p h => by cases h; exact h1.rust) h1.steps.1
      exact ⟨c1, c2 rfl ho.2.1⟩
    refine Safe.bind (forSubclasses_safe hp hf hsh ⟨_, hthis⟩ h1.rust hsim hcs _ (subs_good hp) s2 h2.steps.1 {} VecOk.empty)
      fun ⟨s3, results⟩ _ h3 => ?_
    exact .done ⟨h3.1, (h3.2.push (a := .function n f a) hd).2⟩

/-! ### All functions -/

/-- Nothing which is made for subclasses while functions are analysed. -/
def NoSub {T S F : Type} : Api T S F → Prop
  | .rustSubclassFn .. | .subclassTraitItem .. => False
  | _ => True

/-- The items as they are before functions are analysed. -/
structure GoodItems (nested : AMap QName String) (apis : List PodApi) : Prop where
  fns : ∀ n f u, .function n f u ∈ apis → GoodFn nested n f ∧ FnShape nested n f
  classes : ∀ n d a, .struct n d a ∈ apis → GoodQ n.name ∧ ¬ IsPin n.name ∧ ∀ f ∈ a.fieldInfo, ¬ NamelessField f
  /-- No class holds itself or derives from itself, be it through others. -/
  finite : ∃ depth : QName → Nat, ∀ n d a, .struct n d a ∈ apis →
    ∀ q ∈ a.fieldDefinitionDeps ++ a.bases, depth q < depth n.name
  nosub : ∀ x ∈ apis, NoSub x
  names : ∀ x ∈ apis, CppNamed x.nameInfo
  insts : ∀ n t c, .concreteType n (some t) c ∈ apis → GoodTy t

/-- What there is while functions are analysed. -/
def ItemOk (apis : List PodApi) (x : FnPre1Api) : Prop := MadeOk x ∨ ∃ n d a, x = .struct n d a ∧ .struct n d a ∈ apis

theorem fnSteps_safe {env : FnEnv} (hp : GoodPass env) {apis : List PodApi} (hg : GoodItems env.nested apis) :
    ∀ (l : List PodApi), (∀ x ∈ l, x ∈ apis) → ∀ (s : FnState), GoodState s →
      Safe (fun r => GoodState r.1 ∧ ∀ x ∈ r.2, ItemOk apis x) (fnSteps env s l)
  | [], _, s, hs => .done ⟨hs, fun x hx => by cases hx⟩
  | a :: l, hl, s, hs => by
    rw [fnSteps]
    refine Safe.bind (P := fun r => GoodState r.1 ∧ ∀ x ∈ r.2, ItemOk apis x) ?_ fun ⟨s1, r⟩ _ h1 => ?_
    · have ha := hl a List.mem_cons_self
      cases a with
      | function n f u =>
        obtain ⟨h1, h2⟩ := hg.fns n f u ha
        obtain ⟨g1, g2⟩ := fnAndSubclasses_safe hp h1 h2 hs
        exact ⟨g1, fun r hr => ⟨(g2 r hr).1, fun x hx => .inl ((g2 r hr).2 x hx)⟩⟩
      | struct n d a =>
        refine .done ⟨hs, fun x hx => .inr ?_⟩
        rw [List.mem_singleton.1 hx]
        exact ⟨n, d, a, rfl, ha⟩
      | concreteType n r c =>
        refine .done ⟨hs, fun x hx => .inl ?_⟩
        rw [List.mem_singleton.1 hx]
        exact ⟨hg.names _ ha, fun t ht => hg.insts n t c (ht ▸ ha)⟩
      | _ =>
        refine .done ⟨hs, fun x hx => .inl ?_⟩
        rw [List.mem_singleton.1 hx]
        first | exact ⟨hg.names _ ha, trivial⟩ | exact absurd (hg.nosub _ ha) id
    · refine Safe.bind (fnSteps_safe hp hg l (fun x hx => hl x (List.mem_cons_of_mem _ hx)) s1 h1.1)
        fun ⟨s2, r'⟩ _ h2 => .done ⟨h2.1, fun x hx => ?_⟩
      rcases List.mem_append.1 hx with hx | hx
      · exact h1.2 x hx
      · exact h2.2 x hx

/-! ### Special members -/

theorem found_some {nested : AMap QName String} {apis : List PodApi} (hg : GoodItems nested apis) {l : List FnPre1Api}
    (hn : (l.map (·.name)).Nodup) (hl : ∀ x ∈ l, ItemOk apis x) : findConstructorsPresent l ≠ none := by
  rw [Ne, special_members_panic_iff l hn]
  rintro (⟨S, hS, hne, hst⟩ | ⟨x, hx, hm⟩ | ⟨n, d, a, hx, -, f, hf, hm⟩)
  · obtain ⟨depth, hd⟩ := hg.finite
    -- the shallowest of them holds nothing
    have key : ∀ k, ∀ x ∈ S, depth x.name ≤ k → False := by
      intro k
      induction k with
      | zero =>
        intro x hx hk
        obtain ⟨b, -, hb⟩ := hst x hx
        rcases hl x (hS x hx) with h | ⟨n, d, a, rfl, h⟩
        · cases x <;> first | exact h.2 | (exact absurd hb (by simp [FnPre1Api.fieldAndBaseDeps]))
        · have := hd n d a h _ hb
          exact absurd hk (by simp only [Api.name, Api.nameInfo] at *; omega)
      | succ k ih =>
        intro x hx hk
        obtain ⟨b, hbS, hb⟩ := hst x hx
        rcases hl x (hS x hx) with h | ⟨n, d, a, rfl, h⟩
        · cases x <;> first | exact h.2 | (exact absurd hb (by simp [FnPre1Api.fieldAndBaseDeps]))
        · have := hd n d a h _ hb
          exact ih b hbS (by simp only [Api.name, Api.nameInfo] at *; omega)
    cases S with
    | nil => exact hne rfl
    | cons x S => exact key _ x List.mem_cons_self le_rfl
  · obtain ⟨n, f, an, c, rfl, h⟩ := hm
    rcases hl _ hx with h1 | ⟨_, _, _, h1, -⟩
    · exact h1.2.2.1 ⟨n, f, an, c, rfl, h⟩
    · cases h1
  · rcases hl _ hx with h1 | ⟨_, _, _, h1, h2⟩
    · exact h1.2
    · cases h1
      exact (hg.classes _ _ _ h2).2.2 f hf hm

theorem classItems_name {ex : Explicits} {un en : List QName} {m : AMap QName ItemsFound} {n : ApiName} {d : StructDetails}
    {a : PodAnalysis} {i : ItemsFound} (h : classItems ex un en m n d a = some i) : i.name = some n := by
  unfold classItems at h
  obtain ⟨fields, -, h⟩ := Option.map_eq_some_iff.1 h
  split at h
  · cases h; rfl
  · cases h; rfl

theorem found_named {l : List FnPre1Api} (hn : (l.map (·.name)).Nodup) {found : AMap QName ItemsFound}
    (h : findConstructorsPresent l = some found) :
    ∀ e ∈ found, ∃ n d a, .struct n d a ∈ l ∧ e.1 = n.name ∧ e.2.name = some n := by
  have hwf := findConstructorsPresent_wf l found h
  have loop : ∀ (ex : Explicits) (un en : List QName) (P : ApiName → Prop) (l : List FnPre1Api)
      (m m' : AMap QName ItemsFound), (∀ n d a, .struct n d a ∈ l → P n) →
      (∀ q i, AMap.get? m q = some i → ∃ n, P n ∧ q = n.name ∧ i.name = some n) →
      l.foldl (classStep ex un en) (some m) = some m' →
      ∀ q i, AMap.get? m' q = some i → ∃ n, P n ∧ q = n.name ∧ i.name = some n := by
    intro ex un en P l
    induction l with
    | nil => intro m m' _ hm h; cases h; exact hm
    | cons a l ih =>
      intro m m' hP hm h
      rw [List.foldl_cons] at h
      cases hs : classStep ex un en (some m) a with
      | none => rw [hs, classLoop_none] at h; cases h
      | some m1 =>
        rw [hs] at h
        refine ih m1 m' (fun n d x hx => hP n d x (List.mem_cons_of_mem _ hx)) ?_ h
        unfold classStep at hs
        split at hs
        · rename_i n d x
          split at hs
          · simp only [Option.bind_some] at hs
            cases hc : classItems ex un en m _ _ _ with
            | none => rw [hc] at hs; cases hs
            | some i =>
              rw [hc] at hs
              simp only [Option.bind_some] at hs
              split at hs
              · cases hs
              · cases hs
                intro q i' hq
                rw [AMap.get?_insert] at hq
                split at hq
                · rename_i he
                  cases hq
                  exact ⟨n, hP n d x List.mem_cons_self, he.symm, classItems_name hc⟩
                · exact hm q i' hq
          · cases hs; exact hm
        · cases hs; exact hm
  unfold findConstructorsPresent at h
  cases hx : findExplicitItems l with
  | none => rw [hx] at h; cases h
  | some r =>
    rw [hx] at h
    simp only [Option.bind_some] at h
    split at h
    · rename_i order ho
      have hperm : ∀ x ∈ order, x ∈ l := by
        rcases fields_and_bases_first_spec Api.name FnPre1Api.fieldAndBaseDeps l hn with ⟨out, h1, h2, -⟩ | ⟨o, r, h1, -⟩
        · rw [ho] at h1
          cases h1
          exact fun x hx => h2.subset hx
        · rw [ho] at h1; cases h1
      rintro ⟨q, i⟩ he
      obtain ⟨n, ⟨d, a, h3⟩, h1, h2⟩ := loop _ _ _ (fun n => ∃ d a, .struct n d a ∈ l) order [] found
        (fun n d a hx => ⟨d, a, hperm _ hx⟩) (fun q i hq => by cases hq) h q i (AMap.mem_get? hwf he)
      exact ⟨n, d, a, h3, h1, h2⟩
    · cases h

theorem needed_kinds {i : ItemsFound} {k : SpecialMemberKind} (h : k ∈ membersNeeded i) : k ≠ .assignmentOperator := by
  rintro rfl
  unfold membersNeeded at h
  simp only [List.mem_append] at h
  rcases h with ((h | h) | h) | h <;> split at h <;> simp at h

theorem label_chars (k : SpecialMemberKind) : ("_synthetic_" ++ specialLabel k).toList.all identChar = true := by
  cases k <;> decide

theorem uniquify_ident {env : FnEnv} {n : String} (h : isIdentText n = true) : isIdentText (uniquify env n) = true := by
  unfold uniquify
  refine ident_append (ident_append (ident_append h (by decide)) (by decide)) ?_
  rw [String.toList_ofList]
  exact hex_chars _

theorem pin_name {q : QName} (hns : q.ns = []) (h : q.name = "Pin") : IsPin q := by
  cases q
  cases hns
  cases h
  exact show QName.toCppName ⟨[], "Pin"⟩ = "Pin" by decide +kernel

theorem special_good {env : FnEnv} (hp : GoodPass env) {n : ApiName} (hn : GoodQ n.name) (hpin : ¬ IsPin n.name)
    {k : SpecialMemberKind} (hk : k ≠ .assignmentOperator) :
    GoodFn env.nested (specialName env n.name k) (specialFn env n.name n.name k) ∧
      FnShape env.nested (specialName env n.name k) (specialFn env n.name n.name k) := by
  have hname : GoodName n.name.name := hn _ (by simp [QName.segs])
  have hty : GoodTy (.path n.name.toTypePath []) := toTypePath_good hn hpin (fun a ha => by cases ha)
  have hnr : NoRef (.path n.name.toTypePath []) := .path (fun a ha => by cases ha)
  have hid : isIdentText (specialName env n.name k).name.name = true := by
    refine uniquify_ident ?_
    rw [String.append_assoc]
    exact ident_append hname.1 (label_chars k)
  have hthis : GoodInput (.typed "this" (.ptr true (.path n.name.toTypePath []))) := .typed (by decide) (.ptr hty) (.ptr hnr)
  have hfirst : ∃ l, specialInputs n.name k = .typed "this" (.ptr true (.path n.name.toTypePath [])) :: l := by
    cases k <;> exact ⟨_, rfl⟩
  have hin : ∀ i ∈ specialInputs n.name k, GoodInput i := by
    have hmark : ∀ (m : String) (mu : Bool), isIdentText m = true → leadsWell m.toList = true → m ≠ "root" → m ≠ "output" →
        m ≠ "Pin" → GoodInput (.typed "other" (.path [m] [.ptr mu (.path n.name.toTypePath [])])) := by
      intro m mu h1 h2 h3 h4 h5
      refine .typed (by decide) (.path (q := ⟨[], m⟩) ?_ ?_ (fun h => by simp) ?_) (.path ?_)
      · simp [QName.ofTypePath, QName.fromSegs, h3, h4]
      · intro x hx
        simp only [QName.segs, List.nil_append, List.mem_singleton] at hx
        exact hx ▸ ⟨h1, h2⟩
      · intro a ha; rw [List.mem_singleton.1 ha]; exact .ptr hty
      · intro a ha; rw [List.mem_singleton.1 ha]; exact .ptr hnr
    have hr := hmark "__bindgen_marker_RValueReference" true (by decide) (by decide) (by decide) (by decide) (by decide)
    have hc := hmark "__bindgen_marker_Reference" false (by decide) (by decide) (by decide) (by decide) (by decide)
    intro i hi
    cases k with
    | moveConstructor =>
      rcases List.mem_cons.1 hi with rfl | hi
      · exact hthis
      · rw [List.mem_singleton.1 hi]; exact hr
    | copyConstructor =>
      rcases List.mem_cons.1 hi with rfl | hi
      · exact hthis
      · rw [List.mem_singleton.1 hi]; exact hc
    | _ => rw [List.mem_singleton.1 hi]; exact hthis
  refine ⟨⟨?_, hid, ?_, hin, ?_, ?_, ?_, ?_, ?_, ?_, ?_⟩,
    ⟨?_, ?_, (fun _ => rfl), ?_, (fun b k h => by cases h), (fun sub tr impl h => by cases h)⟩⟩
  · intro x hx
    exact hn x (by simp only [QName.segs, List.mem_append]; exact .inl hx)
  · intro c hc
    unfold specialName at hc
    dsimp only at hc
    split at hc
    · cases hc
      cases hg : AMap.get? env.nested n.name with
      | none => exact hname.1
      | some x => exact (hp.nested _ _ hg).1.1
    · cases hc
  · intro t ht; cases ht
  · intro q hq; cases hq; exact hname.1
  · intro q hq; cases hq
  · intro q m h; cases h
  · intro q h; rcases h with h | h <;> cases h
  · intro q _ h
    obtain ⟨l, hl⟩ := hfirst
    exact absurd (show _ ∈ specialInputs n.name k by rw [hl]; exact List.mem_cons_self) (h _)
  · intro h
    cases h
    exact ⟨rfl, _, _, _, _, _, _, rfl⟩
  · intro _
    obtain ⟨l, hl⟩ := hfirst
    exact ⟨_, _, l, hl⟩
  · intro h
    cases h
    exact absurd rfl hk
  · intro hns c hc
    unfold specialName at hc
    dsimp only at hc
    split at hc
    · cases hc
      cases hg : AMap.get? env.nested n.name with
      | none => exact ⟨hname.2, fun h => hpin (pin_name hns h)⟩
      | some x => exact ⟨(hp.nested _ _ hg).1.2, (hp.nested _ _ hg).2⟩
    · cases hc

/-- While members are added: the vector is in order and its functions are good. -/
def StageOk (apis : List PodApi) (v : ApiVec TypedefAnalysis PodAnalysis FnAnalysis) : Prop :=
  v.Inv ∧ ∀ x ∈ v.apis, ItemOk apis x

theorem StageOk.extend {apis : List PodApi} {v : ApiVec TypedefAnalysis PodAnalysis FnAnalysis} (h : StageOk apis v)
    {l : List FnPre1Api} (hl : ∀ x ∈ l, ItemOk apis x) : StageOk apis (v.extend l) := by
  refine ⟨extend_inv h.1 l, fun x hx => ?_⟩
  rcases extend_mem_cases l h.1 hx with hx | hx | ⟨q, rfl⟩
  · exact h.2 x hx
  · exact hl x hx
  · exact .inl (marker_ok _)

theorem members_safe {env : FnEnv} (hp : GoodPass env) {apis : List PodApi} {n : ApiName} (hn : GoodQ n.name)
    (hpin : ¬ IsPin n.name) {i : ItemsFound} (hi : i.name = some n) : ∀ (ks : List SpecialMemberKind),
    (∀ k ∈ ks, k ≠ .assignmentOperator) → ∀ (s : FnState), GoodState s →
    ∀ (v : ApiVec TypedefAnalysis PodAnalysis FnAnalysis), StageOk apis v →
    Safe (fun r => GoodState r.1 ∧ StageOk apis r.2) (synthesizeMembers env n.name i s v ks)
  | [], _, s, hs, v, hv => .done ⟨hs, hv⟩
  | k :: ks, hks, s, hs, v, hv => by
    rw [synthesizeMembers]
    refine Safe.bind (P := fun r => GoodState r.1 ∧ StageOk apis r.2) ?_ fun ⟨s1, v1⟩ _ h1 =>
      members_safe hp hn hpin hi ks (fun x hx => hks x (List.mem_cons_of_mem _ hx)) s1 h1.1 v1 h1.2
    rw [synthesizeMember.eq_def, hi]
    dsimp only
    obtain ⟨g1, g2⟩ := special_good hp hn hpin (hks k List.mem_cons_self)
    refine Safe.bind (fnAndSubclasses_safe hp g1 g2 hs) fun ⟨s1, r⟩ _ h1 => ?_
    exact .done ⟨h1.1, hv.extend fun x hx => .inl (h1.2 x hx)⟩

theorem synthesizeAll_safe {env : FnEnv} (hp : GoodPass env) {apis : List PodApi} : ∀ (found : List (QName × ItemsFound)),
    (∀ e ∈ found, ∃ n : ApiName, GoodQ n.name ∧ ¬ IsPin n.name ∧ e.1 = n.name ∧ e.2.name = some n) →
    ∀ (s : FnState), GoodState s → ∀ (v : ApiVec TypedefAnalysis PodAnalysis FnAnalysis), StageOk apis v →
    Safe (fun r => GoodState r.1 ∧ StageOk apis r.2) (synthesizeAll env s v found)
  | [], _, s, hs, v, hv => .done ⟨hs, hv⟩
  | (key, i) :: l, hl, s, hs, v, hv => by
    rw [synthesizeAll]
    refine Safe.bind (P := fun r => GoodState r.1 ∧ StageOk apis r.2) ?_ fun ⟨s1, v1⟩ _ h1 =>
      synthesizeAll_safe hp l (fun x hx => hl x (List.mem_cons_of_mem _ hx)) s1 h1.1 v1 h1.2
    split
    · exact .done ⟨hs, hv⟩
    · obtain ⟨n, h1, h2, h3, h4⟩ := hl _ List.mem_cons_self
      cases h3
      exact members_safe hp h1 h2 h4 _ (fun k hk => needed_kinds hk) s hs v hv

/-! ### Constructors of subclasses -/

/-- What the function analysis gives. -/
def OutKind {T S : Type} : Api T S FnAnalysis → Prop
  | .function n f a => Done f a ∧ Idents n.name
  | .rustSubclassFn _ _ d => SubFit d.params d.ret ∧ OverrideSafe d.cppImpl
  | .subclassTraitItem _ d => d.params ≠ []
  | .concreteType _ r _ => ∀ t, r = some t → GoodTy t
  | _ => True

/-- What the function analysis gives, with its name. -/
def OutOk {T S : Type} (x : Api T S FnAnalysis) : Prop := CppNamed x.nameInfo ∧ OutKind x

theorem MadeOk.out {T S : Type} {x : Api T S FnAnalysis} (h : MadeOk x) : OutOk x := by
  refine ⟨h.1, ?_⟩
  have h := h.2
  cases x with
  | function n f a => exact ⟨h.1, h.2.2⟩
  | _ => first | exact h | trivial

theorem marker_out {T S : Type} (q : QName) : OutOk (duplicateMarker q : Api T S FnAnalysis) := ⟨cppNamed_none rfl, trivial⟩

theorem addConstructors_safe {env : FnEnv} (hp : GoodPass env) {apis : List PodApi} (hg : GoodItems env.nested apis)
    {s : FnState} (hs : GoodState s) {v : ApiVec TypedefAnalysis PodAnalysis FnAnalysis} (hv : StageOk apis v) :
    Safe (fun r => GoodState r.1 ∧ ∀ x ∈ r.2.apis, OutOk x) (addConstructorsPresent env s v) := by
  rw [addConstructorsPresent]
  have hn := hv.1.1
  cases hf : findConstructorsPresent v.apis with
  | none => exact absurd hf (found_some hg hn hv.2)
  | some found =>
    dsimp only
    refine Safe.bind (synthesizeAll_safe hp found (fun e he => ?_) s hs v hv) fun ⟨s1, v1⟩ _ h1 =>
      .done ⟨h1.1, fun x hx => ?_⟩
    · obtain ⟨n, d, a, h1, h2, h3⟩ := found_named hn hf e he
      rcases hv.2 _ h1 with h | ⟨_, _, _, h, h4⟩
      · exact absurd h.2 id
      · cases h
        exact ⟨n, (hg.classes _ _ _ h4).1, (hg.classes _ _ _ h4).2.1, h2, h3⟩
    · rcases extend_mem_cases _ inv_empty hx with hx | hx | ⟨q, rfl⟩
      · cases hx
      · obtain ⟨y, hy, rfl⟩ := List.mem_map.1 hx
        rcases h1.2.2 _ hy with h | ⟨_, _, _, rfl, h⟩
        · have h := h.out
          cases y <;> exact h
        · exact ⟨hg.names _ h, trivial⟩
      · exact marker_out _

theorem holder_good {sub : ApiName} (h : GoodQ sub.name) : GoodTy (boxedHolder sub) ∧ NoRef (boxedHolder sub) := by
  have hh := me_good h
  refine ⟨.path (q := ⟨["rust"], "Box"⟩) (by decide) ?_ (fun h => by simp) ?_, .path ?_⟩
  · intro x hx
    simp only [QName.segs, List.cons_append, List.nil_append, List.mem_cons, List.not_mem_nil, or_false] at hx
    rcases hx with rfl | rfl <;> exact ⟨by decide, by decide⟩
  · intro a ha; rw [List.mem_singleton.1 ha]; exact hh
  · intro a ha; rw [List.mem_singleton.1 ha]; exact .path (fun a ha => by cases ha)

theorem subclassCtor_good {nested : AMap QName String} {sub : ApiName} (hsub : GoodQ sub.name) {f : FuncToConvert}
    {a : FnAnalysis} (hd : Done f a) (hc : a.kind.constructorOf ≠ none) {sup : QName} :
    ∃ g n, subclassConstructor sub a sup f = some (g, n) ∧ GoodFn nested n g ∧ FnShape nested n g := by
  obtain ⟨h1, h2, mu, e, l, hi⟩ := hd.ctor hc
  have hp := peer_good hsub
  have hb := holder_good hsub
  have hpn : isIdentText sub.cppPeer.name = true := (hp.1 _ (by simp [QName.segs])).1
  have hty : GoodTy (.path sub.cppPeer.toTypePath []) := toTypePath_good hp.1 hp.2 (fun a ha => by cases ha)
  have hin : ∀ i ∈ l, GoodInput i := fun i hx => hd.inputs i (by rw [hi]; exact List.mem_cons_of_mem _ hx)
  rw [subclassConstructor, hi]
  refine ⟨_, _, rfl, ?_, ?_⟩
  · refine ⟨?_, ?_, ?_, ?_, hd.output, ?_, ?_, ?_, ?_, ?_, ?_⟩
    · intro x hx; cases hx
    · refine ident_append (ident_append hpn (by decide)) (ident_chars hpn)
    · intro c hx; cases hx; exact hpn
    · intro i hx
      rcases List.mem_cons.1 hx with rfl | hx
      · exact .typed (by decide) (.ptr hty) (.ptr (.path (fun a ha => by cases ha)))
      · rcases List.mem_cons.1 hx with rfl | hx
        · exact .typed (by decide) hb.1 hb.2
        · exact hin i hx
    · intro q hq; cases hq; exact hpn
    · intro q hq; cases hq; exact hp
    · intro q m h; cases h
    · intro q h; rcases h with h | h <;> cases h
    · intro q _ h; exact absurd List.mem_cons_self (h _)
    · intro h; exact absurd h h1
  · refine ⟨?_, ?_, hd.noResult, ?_, (fun b k h => by cases h), ?_⟩
    · intro _; exact ⟨_, _, _, rfl⟩
    · intro h; exact absurd h h2
    · intro _ c hc
      cases hc
      refine ⟨(hp.1 _ (by simp [QName.segs])).2, fun h => ?_⟩
      have := congrArg (fun s : String => s.toList.getLast?) h
      simp [ApiName.cppPeer] at this
    · intro s tr impl h
      cases h
      refine ⟨fun c hx => ?_, rfl, (fun ns id h => by cases h)⟩
      rcases List.mem_cons.1 hx with rfl | hx
      · exact ⟨hb.1, by refine ⟨?_, ?_, ?_⟩ <;> (intro h; cases h)⟩
      · obtain ⟨p, hp, rfl⟩ := List.mem_map.1 hx
        exact hd.cpp.args _ (List.mem_map_of_mem (List.mem_of_mem_drop hp))

theorem subclassCtors_safe {env : FnEnv} (hp : GoodPass env) {f : FuncToConvert} {a : FnAnalysis} (hd : Done f a)
    (hc : a.kind.constructorOf ≠ none) {sup : QName} : ∀ (subs : List ApiName), (∀ sub ∈ subs, GoodQ sub.name) →
    ∀ (s : FnState), GoodState s → ∀ (v : ApiVec TypedefAnalysis PodAndConstructorAnalysis FnAnalysis), VecOk v →
    Safe (fun r => GoodState r.1 ∧ VecOk r.2) (subclassCtors env f a sup subs s v)
  | [], _, s, hs, v, hv => .done ⟨hs, hv⟩
  | sub :: l, hl, s, hs, v, hv => by
    rw [subclassCtors]
    obtain ⟨g, n, h1, h2, h3⟩ := subclassCtor_good (nested := env.nested) (hl sub List.mem_cons_self) hd hc (sup := sup)
    rw [h1]
    dsimp only
    exact Safe.bind (addAnalysed_safe hp h2 h3 hs hv) fun ⟨s1, v1, q⟩ _ h =>
      subclassCtors_safe hp hd hc l (fun x hx => hl x (List.mem_cons_of_mem _ hx)) s1 h.1 v1 h.2

theorem subclassCtorsOf_safe {env : FnEnv} (hp : GoodPass env) {ds : List QName} : ∀ (l : List FnPre2Api),
    (∀ n f a, .function n f a ∈ l → Done f a) → ∀ (s : FnState), GoodState s →
    ∀ (v : ApiVec TypedefAnalysis PodAndConstructorAnalysis FnAnalysis), VecOk v →
    Safe (fun r => GoodState r.1 ∧ VecOk r.2) (subclassCtorsOf env ds l s v)
  | [], _, s, hs, v, hv => .done ⟨hs, hv⟩
  | x :: l, hl, s, hs, v, hv => by
    have rest := fun s hs v hv => subclassCtorsOf_safe hp (ds := ds) l
      (fun n f a hx => hl n f a (List.mem_cons_of_mem _ hx)) s hs v hv
    cases x with
    | function n f a =>
      rw [subclassCtorsOf]
      refine Safe.bind (P := fun r => GoodState r.1 ∧ VecOk r.2) ?_ fun ⟨s1, v1⟩ _ h1 => rest s1 h1.1 v1 h1.2
      cases hc : a.kind.constructorOf with
      | none => exact .done ⟨hs, hv⟩
      | some sup =>
        dsimp only
        split
        · exact subclassCtors_safe hp (hl n f a List.mem_cons_self) (by rw [hc]; exact fun h => by cases h) _ (subs_good hp)
            s hs v hv
        · exact .done ⟨hs, hv⟩
    | _ => exact rest s hs v hv

/-! ### The whole pass -/

/-- The items, as the function analysis gets them. -/
structure GoodPodApis (hash : Config → Nat) (cfg : Config) (apis : List PodApi) : Prop where
  /-- It was said what to generate. -/
  allow : ∀ n, cfg.isOnAllowlist hash n ≠ none
  names : ∀ x ∈ apis, x.name.ns = [] → ∀ c, x.nameInfo.cppName = some c → leadsWell c.toList = true ∧ c ≠ "Pin"
  typedefs : ∀ n i o a, .typedef n i o a ∈ apis → GoodTy a.target ∧ TopOk a.target ∧ PinFit a.target
  concretes : ∀ n r c, .concreteType n r c ∈ apis → (GoodQ n.name ∧ ¬ IsPin n.name) ∧ ∀ t, r = some t → GoodTy t
  /-- Nested classes have good names in C++, and none is called `Pin`. -/
  nested : ∀ n, (∃ d a, .struct n d a ∈ apis) ∨ (∃ i, .enum n i ∈ apis) →
    ∀ x, finalSegment n.effectiveCppName = some x → GoodName x ∧ x ≠ "Pin"
  subs : ∀ n sup, .subclass n sup ∈ apis → GoodQ n.name
  traits : traitItems apis = []
  items : GoodItems (nestedNames apis) apis

theorem foldl_keeps {α β : Type} {P : β → Prop} {f : β → α → β} : ∀ (l : List α) {b : β}, P b →
    (∀ b, P b → ∀ a ∈ l, P (f b a)) → P (l.foldl f b)
  | [], _, hb, _ => hb
  | a :: l, b, hb, h => foldl_keeps l (h b hb a List.mem_cons_self) fun b hb x hx => h b hb x (List.mem_cons_of_mem _ hx)

theorem mem_insert_cases {κ α : Type} [DecidableEq κ] {m : AMap κ α} {k : κ} {v : α} :
    ∀ {e : κ × α}, e ∈ AMap.insert m k v → e ∈ m ∨ e.2 = v := by
  induction m with
  | nil => intro e he; rw [AMap.insert] at he; rw [List.mem_singleton.1 he]; exact .inr rfl
  | cons x m ih =>
    intro e he
    rw [AMap.insert] at he
    split at he
    · rcases List.mem_cons.1 he with rfl | he
      · exact .inr rfl
      · exact .inl (List.mem_cons_of_mem _ he)
    · rcases List.mem_cons.1 he with rfl | he
      · exact .inl List.mem_cons_self
      · rcases ih he with h | h
        · exact .inl (List.mem_cons_of_mem _ h)
        · exact .inr h

theorem env_good {fuel : Nat} {hash : Config → Nat} {policy : UnsafePolicy} {cfg : Config} {force : Bool}
    {apis : List PodApi} (h : GoodPodApis hash cfg apis) {env : FnEnv} {s : FnState}
    (he : FnEnv.ofApis fuel hash policy cfg force apis = some (env, s)) :
    GoodPass env ∧ env.nested = nestedNames apis ∧ GoodState s := by
  rw [FnEnv.ofApis] at he
  dsimp only [ConvEnv.ofApis] at he
  simp only [Option.bind_eq_some_iff, Option.map_eq_some_iff] at he
  obtain ⟨_, _, _, _, he⟩ := he
  cases he
  refine ⟨⟨⟨⟨?_, ?_⟩, ?_, h.allow⟩, ?_, ?_, ?_⟩, rfl, ⟨?_, inv_empty, ?_⟩⟩
  · intro q c hq hns
    refine foldl_keeps (P := fun m => ∀ q c, AMap.get? m q = some c → q.ns = [] → leadsWell c.toList = true ∧ c ≠ "Pin")
      apis (fun q c h => by cases h) (fun m hm x hx q c hq hns => ?_) q c hq hns
    split at hq
    · rename_i c' hc'
      rw [AMap.get?_insert] at hq
      split at hq
      · rename_i hxe
        cases hq
        exact h.names x hx (by rw [hxe]; exact hns) _ hc'
      · exact hm q c hq hns
    · exact hm q c hq hns
  · intro q t hq
    refine foldl_keeps (P := fun m => ∀ q t, AMap.get? m q = some t → GoodTy t)
      apis (fun q c h => by cases h) (fun m hm x hx q c hq => ?_) q t hq
    cases x with
    | typedef n i o a =>
      dsimp only at hq
      rw [AMap.get?_insert] at hq
      split at hq
      · cases hq; exact (h.typedefs _ _ _ _ hx).1
      · exact hm q c hq
    | _ => exact hm q c hq
  · intro q t hq
    refine foldl_keeps (P := fun m => ∀ q t, AMap.get? m q = some t → TopOk t)
      apis (fun q c h => by cases h) (fun m hm x hx q c hq => ?_) q t hq
    cases x with
    | typedef n i o a =>
      dsimp only at hq
      rw [AMap.get?_insert] at hq
      split at hq
      · cases hq; exact (h.typedefs _ _ _ _ hx).2.1
      · exact hm q c hq
    | _ => exact hm q c hq
  · intro q t hq
    refine foldl_keeps (P := fun m => ∀ q t, AMap.get? m q = some t → PinFit t)
      apis (fun q c h => by cases h) (fun m hm x hx q c hq => ?_) q t hq
    cases x with
    | typedef n i o a =>
      dsimp only at hq
      rw [AMap.get?_insert] at hq
      split at hq
      · cases hq; exact (h.typedefs _ _ _ _ hx).2.2
      · exact hm q c hq
    | _ => exact hm q c hq
  · intro q t hq
    refine foldl_keeps (P := fun m => ∀ q t, AMap.get? m q = some t → GoodName t ∧ t ≠ "Pin")
      apis (fun q c h => by cases h) (fun m hm x hx q c hq => ?_) q t hq
    cases x with
    | struct n d a =>
      dsimp only at hq
      split at hq
      · rename_i y hy
        rw [AMap.get?_insert] at hq
        split at hq
        · cases hq; exact h.nested n (.inl ⟨d, a, hx⟩) _ hy
        · exact hm q c hq
      · exact hm q c hq
    | enum n i =>
      dsimp only at hq
      split at hq
      · rename_i y hy
        rw [AMap.get?_insert] at hq
        split at hq
        · cases hq; exact h.nested n (.inr ⟨i, hx⟩) _ hy
        · exact hm q c hq
      · exact hm q c hq
    | _ => exact hm q c hq
  · intro q t hq
    refine foldl_keeps (P := fun m => ∀ q t, AMap.get? m q = some t → ∀ sub ∈ t, GoodQ sub.name)
      apis (fun q c h => by cases h) (fun m hm x hx q c hq => ?_) q t hq
    cases x with
    | subclass n sup =>
      dsimp only at hq
      rw [AMap.get?_insert] at hq
      split at hq
      · cases hq
        intro sub hsub
        rcases List.mem_append.1 hsub with hsub | hsub
        · cases hg : AMap.get? m sup with
          | none => rw [hg] at hsub; cases hsub
          | some l => rw [hg] at hsub; exact hm _ _ hg sub hsub
        · rw [List.mem_singleton.1 hsub]; exact h.subs n sup hx
      · exact hm q c hq
    | _ => exact hm q c hq
  · refine foldl_keeps (P := fun m : Concretes => ∀ e ∈ m, GoodQ e.2 ∧ ¬ IsPin e.2)
      apis (fun e h => by cases h) (fun m hm x hx e he => ?_)
    cases x with
    | concreteType n r c =>
      dsimp only at he
      rcases mem_insert_cases he with he | he
      · exact hm e he
      · rw [he]; exact (h.concretes n r c hx).1
    | _ => exact hm e he
  · intro n r c hn; cases hn

theorem env_some (fuel : Nat) (hash : Config → Nat) (policy : UnsafePolicy) (cfg : Config) (force : Bool)
    (apis : List PodApi) : FnEnv.ofApis fuel hash policy cfg force apis ≠ none := by
  have e : moveitSafeTypes = moveitSafeLit := by
    unfold moveitSafeTypes moveitSafeLit knownGet; rw [knownTypes_eq_lit]
  have h1 : podSafeLit.isSome = true := by decide +kernel
  have h2 : moveitSafeLit.isSome = true := by decide +kernel
  rw [FnEnv.ofApis, podSafeTypes_eq_lit, e]
  dsimp only [ConvEnv.ofApis]
  obtain ⟨a, ha⟩ := Option.isSome_iff_exists.1 h1
  obtain ⟨b, hb⟩ := Option.isSome_iff_exists.1 h2
  rw [ha, hb]
  exact fun h => by cases h

/-- **C71 (function analysis)**: the analysis of all functions, with the members it makes up, does not panic, and gives
functions named by identifiers, for each of which code can be made if it has no problem, and overrides and traits for
which code can be made. -/
theorem function_pass_safe {fuel : Nat} {hash : Config → Nat} {policy : UnsafePolicy} {cfg : Config} {force : Bool}
    {apis : ApiVec TypedefAnalysis PodAnalysis Unit} (h : GoodPodApis hash cfg apis.apis) :
    Safe (fun out => ∀ x ∈ out.apis, OutOk x)
      (analyzeFunctions fuel hash policy cfg force apis) := by
  rw [analyzeFunctions]
  cases he : FnEnv.ofApis fuel hash policy cfg force apis.apis with
  | none => exact (env_some _ _ _ _ _ _ he).elim
  | some r =>
    obtain ⟨env, s⟩ := r
    obtain ⟨hp, hnest, hs⟩ := env_good h he
    obtain ⟨ht0, he0, _⟩ := ofApis_start he
    have hg : GoodItems env.nested apis.apis := hnest ▸ h.items
    dsimp only
    refine Safe.bind (fnSteps_safe hp hg apis.apis (fun x hx => hx) s hs) fun ⟨s1, l⟩ e1 h1 => ?_
    have hst : StageOk apis.apis (ApiVec.fromIter l) := StageOk.extend ⟨inv_empty, fun x hx => by cases hx⟩ h1.2
    refine Safe.bind (addConstructors_safe hp hg h1.1 hst) fun ⟨s2, v⟩ e2 h2 => ?_
    have hvi : v.Inv := by
      rw [addConstructorsPresent.eq_def] at e2
      split at e2
      · cases e2
      · obtain ⟨⟨s2', v2⟩, h5, e2⟩ := PassRun.bind_done.1 e2
        cases e2
        exact fromIter_inv _
    have h3 := subclassCtorsOf_safe hp (ds := typesWithDestructors v.apis) v.apis (fun n f a hx => (h2.2 _ hx).2.1) s2
      h2.1 {} VecOk.empty
    refine Safe.bind (P := fun r => r.1.ExtraOk ∧ GoodState r.1 ∧ r.2.Inv ∧ ∀ x ∈ r.2.apis, OutOk x) ?_
      fun ⟨s3, w⟩ _ h4 => ?_
    · rw [addSubclassConstructors]
      refine Safe.bind (P := fun r => r.1.ExtraOk ∧ GoodState r.1 ∧ VecOk r.2) ⟨h3.1, fun ⟨s3, v3⟩ e3 => ⟨?_, h3.2 _ e3⟩⟩
        fun ⟨s3, w⟩ _ h4 => .done ⟨h4.1, h4.2.1, extend_inv hvi _, fun x hx => ?_⟩
      · obtain ⟨tr1, m1, a⟩ := fnSteps_made e1 (by rw [ht0]; exact List.nodup_nil) h.traits
        rw [addConstructorsPresent.eq_def] at e2
        split at e2
        · cases e2
        · obtain ⟨⟨s2', v2⟩, h5, e2⟩ := PassRun.bind_done.1 e2
          cases e2
          obtain ⟨tr2, m2, b⟩ := synthesizeAll_made h5 a.nodup
          obtain ⟨tr3, m3, c⟩ := subclassCtorsOf_made e3
          refine Trace.extraOk ((a.trace.append b.trace).append c.trace) ?_
          rw [FnState.ExtraOk, he0]
          exact ⟨ApiVec.inv_empty, by simp⟩
      · rcases extend_mem_cases _ hvi hx with hx | hx | ⟨q, rfl⟩
        · exact h2.2 _ hx
        · exact (h4.2.2.2 _ hx).out
        · exact marker_out _
    · dsimp only
      rw [addAnalyses_ok (T := TypedefAnalysis) (S := PodAndConstructorAnalysis) (F := FnAnalysis) (fun _ => default)
        (fun _ => default) (fun _ => default) s3.extra.apis h4.1.2]
      refine .done fun x hx => ?_
      rcases extend_mem_cases _ h4.2.2.1 hx with hx | hx | ⟨q, rfl⟩
      · exact h4.2.2.2 _ hx
      · obtain ⟨y, hy, rfl⟩ := List.mem_map.1 hx
        rcases h4.1.2 y hy with h | h
        · obtain ⟨_, _, _, rfl⟩ := h
          exact ⟨cppNamed_none rfl, (h4.2.1.extra _ _ _ hy).2⟩
        · rw [Api.IsDup] at h
          rw [h]
          exact marker_out _
      · exact marker_out _

end Verif
