import Verif.FnPass
import Verif.PolicyProps
import Verif.TypeConvMore

/-!
# Reading a successful function analysis backwards

Lemmas which say what the steps of `analyzeForeignFn` did when it finished. The properties are in `FnProps`.
-/

set_option autoImplicit false

namespace Verif

theorem PassRun.bind_done {α β : Type} {r : PassRun α} {f : α → PassRun β} {b : β} :
    r.bind f = .done b ↔ ∃ a, r = .done a ∧ f a = .done b := by
  cases r with
  | done a => exact ⟨fun h => ⟨a, rfl, h⟩, fun ⟨_, e, h⟩ => by cases e; exact h⟩
  | panic => exact ⟨(fun h => by cases h), (fun ⟨_, e, _⟩ => by cases e)⟩
  | diverges => exact ⟨(fun h => by cases h), (fun ⟨_, e, _⟩ => by cases e)⟩

theorem laterErr_none {a b : Option Err} : laterErr a b = none ↔ a = none ∧ b = none := by
  cases a <;> cases b <;> simp [laterErr]

theorem mkIdent_done {s r : String} : mkIdent s = .done r ↔ isIdentText s = true ∧ r = s := by
  rw [mkIdent]
  split
  · rename_i h
    exact ⟨fun e => ⟨h, by cases e; rfl⟩, fun ⟨_, e⟩ => by rw [e]⟩
  · rename_i h
    exact ⟨(fun e => by cases e), (fun ⟨h', _⟩ => absurd h' h)⟩

theorem toRun_done {α : Type} {r : CRes α} {x : Except Err α} (h : r.toRun = .done x) :
    (∃ a, r = .ok a ∧ x = .ok a) ∨ ∃ e, r = .err e ∧ x = .error e := by
  cases r <;> cases h
  · exact .inl ⟨_, rfl, rfl⟩
  · exact .inr ⟨_, rfl, rfl⟩

/-- A type was converted, perhaps with new instantiations declared. -/
theorem convertBoxed_ok {env : FnEnv} {s s' : FnState} {ns : List String} {ty : Ty} {a : Annotated Ty}
    (h : convertBoxed env s ns ty = .done (s', .ok a)) :
    ∃ st, convertType env.conv ns env.fuel .outerType s.concretes ty = (st, .ok a) ∧
      s' = { s with concretes := st, extra := s.extra.extend a.extra } := by
  rw [convertBoxed] at h
  cases hc : convertType env.conv ns env.fuel .outerType s.concretes ty with
  | mk st r =>
    rw [hc] at h
    obtain ⟨x, hx, h⟩ := PassRun.bind_done.1 h
    rcases toRun_done hx with ⟨b, rfl, rfl⟩ | ⟨e, rfl, rfl⟩
    · cases h; exact ⟨st, rfl, rfl⟩
    · cases h

theorem convertBoxed_err {env : FnEnv} {s s' : FnState} {ns : List String} {ty : Ty} {e : Err}
    (h : convertBoxed env s ns ty = .done (s', .error e)) :
    ∃ st, convertType env.conv ns env.fuel .outerType s.concretes ty = (st, .err e) ∧
      s' = { s with concretes := st } := by
  rw [convertBoxed] at h
  cases hc : convertType env.conv ns env.fuel .outerType s.concretes ty with
  | mk st r =>
    rw [hc] at h
    obtain ⟨x, hx, h⟩ := PassRun.bind_done.1 h
    rcases toRun_done hx with ⟨b, rfl, rfl⟩ | ⟨e, rfl, rfl⟩
    · cases h
    · cases h; exact ⟨st, rfl, rfl⟩

/-- What `convertNamedArg` records. -/
def recordedArg (name : Ident) (selfType : Option (QName × ReceiverMutability)) (isPlacement : Bool) (a : Annotated Ty)
    (conv : TypeConversionPolicy) : ArgumentAnalysis :=
  { conversion := conv
    name := name
    selfType := selfType
    hasLifetime := a.kind = .reference || a.kind = .mutableReference
    isMutableReference := a.kind = .mutableReference
    deps := a.deps
    requiresUnsafe := argUnsafety a.kind conv isPlacement
    isPlacementReturnDestination := isPlacement }

theorem convertNamedArg_ok {env : FnEnv} {s s' : FnState} {ns : List String} {m : ArgMode} {name : Ident} {ty : Ty}
    {self : Option (QName × ReceiverMutability)} {into : Bool} {p : FnArg × ArgumentAnalysis}
    (h : convertNamedArg env s ns m name ty self into = .done (s', .ok p)) :
    ∃ st a conv,
      convertType env.conv ns env.fuel .outerType s.concretes ty = (st, .ok a) ∧
      s' = { s with concretes := st, extra := s.extra.extend a.extra } ∧
      argConversion env m a self.isSome (into || m.force = some .fromPlacementParamToNewReturn) = some conv ∧
      p = (.typed name a.ty, recordedArg name self (into || m.force = some .fromPlacementParamToNewReturn) a conv) := by
  rw [convertNamedArg] at h
  obtain ⟨⟨s1, r⟩, hb, h⟩ := PassRun.bind_done.1 h
  cases r with
  | error e => cases h
  | ok a =>
    obtain ⟨st, hc, rfl⟩ := convertBoxed_ok hb
    dsimp only at h
    cases hv : argConversion env m a self.isSome (into || m.force = some .fromPlacementParamToNewReturn) with
    | none => rw [hv] at h; cases h
    | some conv =>
      rw [hv] at h
      cases h
      exact ⟨st, a, conv, hc, rfl, hv, rfl⟩

/-- The name and the type a parameter is converted with, and the class for `this`. -/
inductive ArgPrepared (m : ArgMode) (diag : QName) :
    FnArg → Ident → Ty → Option (QName × ReceiverMutability) → Bool → Prop
  | thisRef {ty ty' : Ty} {q : QName × ReceiverMutability} (h : thisType m.virtualThis diag ty = .done (.ok (q, ty')))
      (hr : m.thisAsReference = true) :
      ArgPrepared m diag (.typed "this" ty) "self" (.path ["__bindgen_marker_Reference"] [ty']) (some q) m.intoSelf
  | thisPtr {ty ty' : Ty} {q : QName × ReceiverMutability} (h : thisType m.virtualThis diag ty = .done (.ok (q, ty')))
      (hr : m.thisAsReference = false) :
      ArgPrepared m diag (.typed "this" ty) "this" ty' (some q) m.intoSelf
  | other {name : Ident} {ty : Ty} (hn : name ≠ "this") (hv : validateIdentOkForCxx name = .ok) :
      ArgPrepared m diag (.typed name ty) name ty none false

theorem convertFnArg_ok {env : FnEnv} {s s' : FnState} {ns : List String} {diag : QName} {m : ArgMode} {i : FnArg}
    {p : FnArg × ArgumentAnalysis} (h : convertFnArg env s ns diag m i = .done (s', .ok p)) :
    ∃ name ty self into, ArgPrepared m diag i name ty self into ∧
      convertNamedArg env s ns m name ty self into = .done (s', .ok p) := by
  cases i with
  | receiver t => cases h
  | typed name ty =>
    rw [convertFnArg] at h
    split at h
    · rename_i hn
      subst hn
      obtain ⟨x, hx, h⟩ := PassRun.bind_done.1 h
      cases x with
      | error e => cases h
      | ok q =>
        obtain ⟨q, ty'⟩ := q
        dsimp only at h
        split at h
        · rename_i hr
          exact ⟨_, _, _, _, .thisRef hx hr, h⟩
        · rename_i hr
          exact ⟨_, _, _, _, .thisPtr hx (by simpa using hr), h⟩
    · rename_i hn
      cases hv : validateIdentOkForCxx name with
      | panic => rw [hv] at h; cases h
      | bad e => rw [hv] at h; cases h
      | ok => rw [hv] at h; exact ⟨_, _, _, _, .other hn hv, h⟩

/-- Each parameter becomes a converted one or an error, in order. -/
inductive ParamFates (env : FnEnv) (ns : List String) (diag : QName) (m : ArgMode) :
    FnState → List FnArg → FnState → List (FnArg × ArgumentAnalysis) → List Err → Prop
  | nil {s : FnState} : ParamFates env ns diag m s [] s [] []
  | good {s s1 s2 : FnState} {i : FnArg} {l : List FnArg} {p : FnArg × ArgumentAnalysis}
      {ps : List (FnArg × ArgumentAnalysis)} {es : List Err} (h : convertFnArg env s ns diag m i = .done (s1, .ok p))
      (t : ParamFates env ns diag m s1 l s2 ps es) : ParamFates env ns diag m s (i :: l) s2 (p :: ps) es
  | bad {s s1 s2 : FnState} {i : FnArg} {l : List FnArg} {e : Err}
      {ps : List (FnArg × ArgumentAnalysis)} {es : List Err} (h : convertFnArg env s ns diag m i = .done (s1, .error e))
      (t : ParamFates env ns diag m s1 l s2 ps es) :
      ParamFates env ns diag m s (i :: l) s2 ps (.argument (describeArg i) e :: es)

theorem convertParams_done {env : FnEnv} {ns : List String} {diag : QName} {m : ArgMode} : ∀ {l : List FnArg}
    {s s' : FnState} {ps : List (FnArg × ArgumentAnalysis)} {es : List Err},
    convertParams env ns diag m s l = .done (s', ps, es) → ParamFates env ns diag m s l s' ps es
  | [], _, _, _, _, h => by cases h; exact .nil
  | i :: l, s, s', ps, es, h => by
    rw [convertParams] at h
    obtain ⟨⟨s1, r⟩, h1, h⟩ := PassRun.bind_done.1 h
    obtain ⟨⟨s2, good, bad⟩, h2, h⟩ := PassRun.bind_done.1 h
    have t := convertParams_done h2
    cases r with
    | ok p => cases h; exact .good h1 t
    | error e => cases h; exact .bad h1 t

theorem ParamFates.length {env : FnEnv} {ns : List String} {diag : QName} {m : ArgMode} {s s' : FnState}
    {l : List FnArg} {ps : List (FnArg × ArgumentAnalysis)} {es : List Err}
    (h : ParamFates env ns diag m s l s' ps es) : ps.length + es.length = l.length := by
  induction h with
  | nil => rfl
  | good _ _ ih => simp only [List.length_cons]; omega
  | bad _ _ ih => simp only [List.length_cons]; omega

/-- Everything `analyzeForeignFn` did. -/
structure FnSteps (env : FnEnv) (s : FnState) (name : ApiName) (f : FuncToConvert) (soph : Sophistication)
    (pre : Option String) (s' : FnState) (a : FnAnalysis) (n : ApiName) where
  diag : Ident
  s1 : FnState
  ps : List (FnArg × ArgumentAnalysis)
  bads : List Err
  ideal : String
  s2 : FnState
  kn : KindAndName
  s3 : FnState
  ps' : List (FnArg × ArgumentAnalysis)
  e : Option Err
  e' : Option Err
  bridgeName : String
  s4 : FnState
  ret : ReturnAnalysis
  e'' : Option Err
  bad : Bool
  hdiag : isIdentText diag = true ∧ diag = name.cppName.getD f.ident
  hparams : ParamFates env name.name.ns ⟨name.name.ns, diag⟩ { virtualThis := f.synthesizedThisType, soph := soph } s
    f.inputs s1 ps bads
  hideal : idealRustName f.ident name.cppName = .done ideal
  hkind : decideKind env s1 name.name.ns f ideal pre
    (match selfOfParams ps with
      | some q => some q.1
      | none => f.selfTy)
    ((selfOfParams ps).isNone && f.selfTy.isSome) ((selfOfParams ps).map (·.2)) (secondIsRef ps) = .done (s2, kn)
  hrust : isIdentText kn.rustName = true
  hre : reanalyzeParams env s2 name.name.ns ⟨name.name.ns, diag⟩ f soph kn.kind ps = .done (s3, ps', e)
  hsig : signatureProblem env f kn.kind bads = some e'
  hbridge : s3.bridge.getName
      { ty := kn.kind.bridgeTy, found := kn.rustName, ns := name.name.ns } = (s4.bridge, bridgeName)
  hs4 : s4 = { s3 with bridge := s4.bridge }
  hbident : isIdentText bridgeName = true
  hret : (convertReturn env s4 name.name.ns ⟨name.name.ns, diag⟩ soph f.output = .done (s', .ok ret) ∧ e'' = none) ∨
    ∃ e, convertReturn env s4 name.name.ns ⟨name.name.ns, diag⟩ soph f.output = .done (s', .error e) ∧ ret = {} ∧
      e'' = some e
  hbad : (match name.cppName with
      | some n => nameBadForRust n
      | none => .done false) = .done bad
  hfin : finishAnalysis env name f kn ps' (paramDepsOf ps) ret bridgeName (laterErr (laterErr e e') e'') bad =
    some (a, n)

theorem analyze_steps {env : FnEnv} {s s' : FnState} {name n : ApiName} {f : FuncToConvert} {soph : Sophistication}
    {pre : Option String} {a : FnAnalysis} (h : analyzeForeignFn env s name f soph pre = .done (s', a, n)) :
    Nonempty (FnSteps env s name f soph pre s' a n) := by
  rw [analyzeForeignFn] at h
  obtain ⟨d, h1, h⟩ := PassRun.bind_done.1 h
  obtain ⟨i1, rfl⟩ := mkIdent_done.1 h1
  obtain ⟨⟨s1, ps, bads⟩, h2, h⟩ := PassRun.bind_done.1 h
  obtain ⟨ideal, h3, h⟩ := PassRun.bind_done.1 h
  obtain ⟨⟨s2, kn⟩, h4, h⟩ := PassRun.bind_done.1 h
  obtain ⟨d, h5, h⟩ := PassRun.bind_done.1 h
  obtain ⟨i5, rfl⟩ := mkIdent_done.1 h5
  obtain ⟨⟨s3, ps', e⟩, h6, h⟩ := PassRun.bind_done.1 h
  try dsimp only at h
  try dsimp only at h2
  try dsimp only at h4
  try dsimp only at h6
  cases h7 : signatureProblem env f kn.kind bads with
  | none => rw [h7] at h; cases h
  | some e' =>
    rw [h7] at h
    try dsimp only at h
    obtain ⟨d, h8, h⟩ := PassRun.bind_done.1 h
    obtain ⟨i8, rfl⟩ := mkIdent_done.1 h8
    obtain ⟨⟨s5, r⟩, h9, h⟩ := PassRun.bind_done.1 h
    try dsimp only at h
    obtain ⟨bad, h10, h⟩ := PassRun.bind_done.1 h
    try dsimp only at h
    split at h
    · cases h
    · rename_i r' hr'
      cases h
      refine ⟨{ diag := _, s1 := s1, ps := ps, bads := bads, ideal := ideal, s2 := s2, kn := kn, s3 := s3, ps' := ps',
                e := e, e' := e', bridgeName := _, s4 := { s3 with bridge := (s3.bridge.getName { ty := kn.kind.bridgeTy, found := kn.rustName, ns := name.name.ns }).1 }, ret := _, e'' := _, bad := bad, hdiag := ⟨i1, rfl⟩,
                hparams := convertParams_done h2, hideal := h3, hkind := h4, hrust := i5, hre := h6, hsig := h7,
                hbridge := rfl, hs4 := rfl, hbident := i8, hret := ?_, hbad := h10, hfin := hr' }⟩
      cases r with
      | ok r => exact .inl ⟨h9, rfl⟩
      | error e => exact .inr ⟨e, h9, rfl, rfl⟩

end Verif
