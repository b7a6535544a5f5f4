import Verif.TypeConvProps

/-!
# More properties of the type converter: incomplete types, kinds, the blocklist, lost declarations
-/

set_option autoImplicit false

namespace Verif

open Relation (ReflTransGen)

/-! ### Incomplete types -/

/-- A type needs another to be complete: it holds one by value, or in one of the C++ containers. Pointers
and references do not need their target to be complete; arrays do. -/
inductive NeedsComplete : Ty → QName → Prop
  | self {segs : List String} {args : List Ty} {q : QName} (h : QName.ofTypePath segs = some q) :
      NeedsComplete (.path segs args) q
  | arg {segs : List String} {args : List Ty} {t : Ty} {q r : QName} (hm : t ∈ args)
      (hr : QName.ofTypePath segs = some r) (hb : ∃ d, knownGet r = some d ∧ d.behavior ≠ .rustContainerByValueSafe)
      (h : NeedsComplete t q) : NeedsComplete (.path segs args) q
  | array {e : Ty} {n : String} {q : QName} (h : NeedsComplete e q) : NeedsComplete (.array e n) q

theorem confirmPayload_paths {env : ConvEnv} {desc : QName} {b : CxxGenericType} (hb : b ≠ .rust) :
    ∀ {l : List Ty} {k : ConvKind}, confirmPayload env desc b l = .ok k →
      k = .regular ∧ ∀ t ∈ l, ∃ segs args, t = .path segs args
  | [], k, h => by cases h; exact ⟨rfl, by simp⟩
  | t :: r, k, h => by
    rw [confirmPayload.eq_def] at h
    split at h
    · rename_i he
      cases he
    · rename_i segs args r' he
      obtain ⟨rfl, rfl⟩ := List.cons.inj he
      have key : ∀ {l}, confirmPayload env desc b l = .ok k → l = r →
          k = .regular ∧ ∀ t ∈ .path segs args :: r, ∃ segs args, t = .path segs args := by
        intro l hl e
        subst e
        obtain ⟨h1, h2⟩ := confirmPayload_paths hb hl
        refine ⟨h1, fun t ht => ?_⟩
        rcases List.mem_cons.1 ht with rfl | ht
        · exact ⟨_, _, rfl⟩
        · exact h2 t ht
      split at h
      · cases h
      · split at h
        · cases h
        · split at h
          · exact absurd rfl hb
          · split at h
            · cases h
            · exact key h rfl
          · split at h
            · cases h
            · split at h
              · cases h
              · exact key h rfl
          · exact key h rfl
    · cases h

theorem argsOk_mem {R : Concretes → Ty → Concretes → Annotated Ty → Prop} {st st' : Concretes} {l : List Ty}
    {b : Annotated (List Ty)} (h : ArgsOk R st l st' b) {t : Ty} (ht : t ∈ b.ty) :
    ∃ s s' x a, R s x s' a ∧ a.ty = t := by
  induction h with
  | nil => cases ht
  | cons h hr ih =>
    rcases List.mem_cons.1 ht with rfl | ht
    · exact ⟨_, _, _, _, h, rfl⟩
    · exact ih ht

theorem substitutePath_details {tn : QName} {d : TypeDetails} (hd : knownGet tn = some d) {s : List String}
    {r : QName} (h : QName.ofTypePath (substitutePath tn s) = some r) : knownGet r = some d := by
  rw [substitutePath.eq_def, considerSubstitution, hd] at h
  obtain ⟨r', h1, h2⟩ := substitute_details hd
  simp only [Option.map_some] at h
  rw [h1] at h
  cases h
  exact h2

theorem container_known {tn : QName} (hb : cxxGenericBehavior tn ≠ .not) :
    ∃ d, knownGet tn = some d ∧ d.genericBehavior = cxxGenericBehavior tn := by
  rw [cxxGenericBehavior] at hb ⊢
  cases hk : knownGet tn with
  | none => rw [hk] at hb; exact absurd rfl hb
  | some d => exact ⟨d, rfl, rfl⟩

theorem no_needs_ref {mu : Bool} {lt : Option String} {e : Ty} {q : QName} (h : NeedsComplete (.ref mu lt e) q) : False := by
  cases h

/-- **C55 (partial)**: apart from arrays, a type converted outside a reference never needs a type to be
complete of which only a declaration was seen. (The names of built-in types are not declared again.) -/
theorem forward_partial (env : ConvEnv) (ns : List String) (n : Nat) (ctx : ConvCtx) (st st' : Concretes)
    (ty : Ty) (a : Annotated Ty) (hctx : ctx ≠ .withinReference) (hfwd : ∀ q ∈ env.forward, knownGet q = none)
    (h : convertType env ns n ctx st ty = (st', .ok a)) (hna : ∀ e len, a.ty ≠ .array e len)
    (q : QName) (hq : NeedsComplete a.ty q) : q ∉ env.forward := by
  induction n generalizing ctx st st' ty a q with
  | zero => cases h
  | succ n ih =>
    have known : ∀ {d}, knownGet q = some d → q ∉ env.forward := fun hk hm => by
      rw [hfwd q hm] at hk; cases hk
    cases convertType_ok h with
    | marker hm h' hr => exact ih _ _ _ _ _ hctx hr hna _ hq
    | lvalue h' hr =>
      rename_i mu e b
      cases mu with
      | false => cases hq
      | true =>
        cases hq with
        | self h => cases h; obtain ⟨d, hd⟩ := known_pin; exact known hd
        | arg hm hr hb hq =>
          rcases List.mem_cons.1 hm with rfl | hm
          · cases hq
          · cases hm
    | rvalue h' hp hr => cases hq
    | ref hr => cases hq
    | array hr => exact absurd rfl (hna _ _)
    | ptr hp hr => cases hq
    | done hp =>
      rcases prepared_inv hp with ⟨_, e⟩ | ⟨_, _, _, _, _, e⟩ | ⟨mu, e', he, e⟩ | ⟨t, he, h1, _, e⟩
      · cases e
      · cases e
      · cases e; cases hq
      · cases e
        cases t with
        | path s x => exact absurd rfl (h1 _ _)
        | array e l => exact absurd rfl (hna _ _)
        | ref => cases hq
        | ptr => cases hq
        | other => cases hq
    | plain hp hf =>
      rcases finishPath_ok hf with ⟨rfl, hfin⟩ | ⟨rfl, _⟩
      · obtain ⟨q', h1, h2, _⟩ := hfin _ _ rfl
        cases hq with
        | self h => rw [h1] at h; cases h; exact h2 hctx
        | arg hm => cases hm
      · cases hq
    | concrete hp hb hi hqn hig ht hf =>
      rcases finishPath_ok hf with ⟨rfl, hfin⟩ | ⟨rfl, _⟩
      · obtain ⟨q', h1, h2, _⟩ := hfin _ _ rfl
        cases hq with
        | self h => rw [h1] at h; cases h; exact h2 hctx
        | arg hm => cases hm
      · cases hq
    | container hp hb hargs hk hf =>
      rcases finishPath_ok hf with ⟨rfl, hfin⟩ | ⟨rfl, _⟩
      · obtain ⟨q', h1, h2, _⟩ := hfin _ _ rfl
        cases hq with
        | self h => rw [h1] at h; cases h; exact h2 hctx
        | arg hm hr hnr hq =>
          obtain ⟨d, hd, hgb⟩ := container_known hb
          have hd' := substitutePath_details hd hr
          obtain ⟨d'', hd'', hne⟩ := hnr
          rw [hd'] at hd''
          cases hd''
          have hnr : cxxGenericBehavior _ ≠ .rust := fun e => by
            rw [e] at hgb
            rw [TypeDetails.genericBehavior.eq_def] at hgb
            split at hgb
            · cases hgb
            · cases hgb
            · rename_i hbeh; exact hne hbeh
            · cases hgb
          obtain ⟨s1, s2, x, b, hx, rfl⟩ := argsOk_mem hargs hm
          obtain ⟨_, hp'⟩ := confirmPayload_paths hnr hk
          obtain ⟨sg, ag, he⟩ := hp' _ hm
          refine ih _ _ _ _ _ (by simp) hx (fun e l => by rw [he]; simp) _ hq
      · cases hq

/-- Only `class Fwd;` was seen. -/
def exForward : ConvEnv := { forward := [⟨[], "Fwd"⟩] }

/-- `Fwd` and `std::unique_ptr<Fwd>` are refused; `Fwd *` and `std::unique_ptr<Other>` are accepted. -/
example : (convertType exForward [] 5 .outerType [] (.path ["root", "Fwd"] [])).2 =
      .err (.typeContainingForwardDeclaration ⟨[], "Fwd"⟩) ∧
    (convertType exForward [] 5 .outerType [] (exUnique (.path ["root", "Fwd"] []))).2 =
      .err (.typeContainingForwardDeclaration ⟨[], "Fwd"⟩) ∧
    (convertType exForward [] 5 .outerType [] (.ptr true (.path ["root", "Fwd"] []))).2 =
      .ok { ty := .ptr true (.path ["output", "Fwd"] []), deps := [⟨[], "Fwd"⟩], kind := .pointer } ∧
    (convertType exForward [] 5 .outerType [] (exUnique (.path ["root", "Other"] []))).2 =
      .ok { ty := .path ["cxx", "UniquePtr"] [.path ["output", "Other"] []],
            deps := [⟨["std"], "unique_ptr"⟩, ⟨[], "Other"⟩], kind := .regular } := by
  decide_known

/-- **C55 is false** for arrays: their elements are converted as if behind a reference. -/
theorem forward_array_false :
    (convertType exForward [] 5 .outerType [] (.array (.path ["root", "Fwd"] []) "3")).2 =
      .ok { ty := .array (.path ["output", "Fwd"] []) "3", deps := [⟨[], "Fwd"⟩], kind := .regular } ∧
    NeedsComplete (.array (.path ["output", "Fwd"] []) "3") ⟨[], "Fwd"⟩ ∧ ⟨[], "Fwd"⟩ ∈ exForward.forward := by
  refine ⟨by decide_known, .array (.self (by decide)), by decide⟩

/-! ### Kinds -/

/-- What the kind reported for a converted type says about it. -/
def Describes : ConvKind → Ty → Prop
  | .regular, _ => True
  | .pointer, t => ∃ mu e, t = .ptr mu e
  | .rvalueReference, t => ∃ mu e, t = .ptr mu e
  | .reference, t => ∃ mu lt e, t = .ref mu lt e
  | .mutableReference, t => ∃ e, t = .path ["core", "pin", "Pin"] [.ref true none e]
  | .subclassHolder id, t => ∃ segs s args r, t = .path segs (.path s args :: r) ∧ QName.ofTypePath s = some ⟨[], id⟩

theorem confirmPayload_holder {env : ConvEnv} {desc : QName} {b : CxxGenericType} {l : List Ty} {k : ConvKind}
    (h : confirmPayload env desc b l = .ok k) (hk : k ≠ .regular) :
    b = .rust ∧ ∃ s args r q, l = .path s args :: r ∧ QName.ofTypePath s = some q ∧ q.ns = [] ∧
      k = .subclassHolder q.name ∧ env.cfg.isSubclassHolder q.name = true := by
  by_cases hb : b = .rust
  · subst hb
    refine ⟨rfl, ?_⟩
    rw [confirmPayload.eq_def] at h
    split at h
    · cases h; exact absurd rfl hk
    · split at h
      · cases h
      · rename_i q hq
        simp only [ne_eq, not_true_eq_false, false_and, if_false] at h
        split at h
        · cases h
        · rename_i hns
          split at h
          · cases h
          · split at h
            · rename_i hh
              cases h
              exact ⟨_, _, _, q, rfl, hq, by simpa using hns, rfl, hh⟩
            · cases h; exact absurd rfl hk
    · cases h
  · exact absurd (confirmPayload_paths hb h).1 hk

theorem container_not_str {tn r : QName} (hb : cxxGenericBehavior tn ≠ .not) {s : List String}
    (h : QName.ofTypePath (substitutePath tn s) = some r) : shouldDereferenceInCpp r = false := by
  obtain ⟨d, hd, hgb⟩ := container_known hb
  rw [shouldDereferenceInCpp, substitutePath_details hd h]
  rw [← hgb] at hb
  simp only [decide_eq_false_iff_not]
  intro hs
  rw [TypeDetails.genericBehavior, hs] at hb
  exact hb rfl

/-- **C58**: the kind reported with a converted type describes it. -/
theorem kind_describes (env : ConvEnv) (ns : List String) (n : Nat) (ctx : ConvCtx) (st st' : Concretes)
    (ty : Ty) (a : Annotated Ty) (h : convertType env ns n ctx st ty = (st', .ok a)) : Describes a.kind a.ty := by
  induction n generalizing ctx st st' ty a with
  | zero => cases h
  | succ n ih =>
    cases convertType_ok h with
    | marker hm h' hr => exact ih _ _ _ _ _ hr
    | lvalue h' hr =>
      rename_i mu e b
      cases mu with
      | false => exact ⟨_, _, _, rfl⟩
      | true => exact ⟨_, rfl⟩
    | rvalue h' hp hr => exact ⟨_, _, rfl⟩
    | ref hr => exact ⟨_, _, _, rfl⟩
    | array hr => trivial
    | ptr hp hr => exact ⟨_, _, rfl⟩
    | done hp =>
      rcases prepared_inv hp with ⟨_, e⟩ | ⟨_, _, _, _, _, e⟩ | ⟨mu, e', he, e⟩ | ⟨t, he, h1, _, e⟩
      · cases e
      · cases e
      · cases e; exact ⟨_, _, rfl⟩
      · cases e; trivial
    | plain hp hf =>
      rcases finishPath_ok hf with ⟨rfl, _⟩ | ⟨rfl, _⟩
      · trivial
      · exact ⟨_, _, _, rfl⟩
    | concrete hp hb hi hqn hig ht hf =>
      rcases finishPath_ok hf with ⟨rfl, _⟩ | ⟨rfl, _⟩
      · trivial
      · exact ⟨_, _, _, rfl⟩
    | container hp hb hargs hk hf =>
      rename_i k
      rcases finishPath_ok hf with ⟨rfl, _⟩ | ⟨rfl, _⟩
      · by_cases hreg : k = .regular
        · subst hreg; trivial
        · obtain ⟨_, s, args, r, q, h1, h2, h3, rfl, _⟩ := confirmPayload_holder hk hreg
          refine ⟨_, s, args, r, by rw [h1], ?_⟩
          rw [h2]
          cases q
          cases h3
          rfl
      · exact ⟨_, _, _, rfl⟩

/-- **C58 (partial)**, the other direction: as long as no typedef stands for a reference, a type whose
kind is reported as regular is neither a reference nor a pointer. -/
theorem kind_regular_partial (env : ConvEnv) (ns : List String) (n : Nat) (ctx : ConvCtx) (st st' : Concretes)
    (ty : Ty) (a : Annotated Ty) (htd : ∀ q mu lt e, AMap.get? env.typedefs q ≠ some (.ref mu lt e))
    (h : convertType env ns n ctx st ty = (st', .ok a)) (hk : a.kind = .regular) :
    (∀ mu e, a.ty ≠ .ptr mu e) ∧ ∀ mu lt e, a.ty ≠ .ref mu lt e := by
  induction n generalizing ctx st st' ty a with
  | zero => cases h
  | succ n ih =>
    cases convertType_ok h with
    | marker hm h' hr => exact ih _ _ _ _ _ hr hk
    | lvalue h' hr =>
      rename_i mu e b
      cases mu <;> cases hk
    | rvalue h' hp hr => cases hk
    | ref hr => cases hk
    | array hr => simp
    | ptr hp hr => cases hk
    | done hp =>
      rcases prepared_inv hp with ⟨_, e⟩ | ⟨_, _, _, _, _, e⟩ | ⟨mu, e', he, e⟩ | ⟨t, he, h1, h2, e⟩
      · cases e
      · cases e
      · cases e; cases hk
      · cases e
        obtain ⟨x, _, hx⟩ := endsAt_target he rfl
        exact ⟨h2, fun mu lt e he => htd x mu lt e (by rw [hx]; exact congrArg some he)⟩
    | plain hp hf =>
      rcases finishPath_ok hf with ⟨rfl, _⟩ | ⟨rfl, _⟩
      · simp
      · cases hk
    | concrete hp hb hi hqn hig ht hf =>
      rcases finishPath_ok hf with ⟨rfl, _⟩ | ⟨rfl, _⟩
      · simp
      · cases hk
    | container hp hb hargs hk' hf =>
      rcases finishPath_ok hf with ⟨rfl, _⟩ | ⟨rfl, _⟩
      · simp
      · cases hk

/-- `typedef const Foo &ConstRef; typedef Foo &MutRef;`: the targets after the typedefs' own conversion. -/
def exRefTypedefs : ConvEnv :=
  { typedefs := [(⟨[], "ConstRef"⟩, .ref false none (.path ["output", "Foo"] [])),
                 (⟨[], "MutRef"⟩, .path ["core", "pin", "Pin"] [.ref true none (.path ["output", "Foo"] [])])] }

/-- The targets in `exRefTypedefs` are what the converter makes of `const Foo &` and `Foo &`. -/
example : (convertType {} [] 5 .withinReference []
      (.path ["__bindgen_marker_Reference"] [.ptr false (.path ["root", "Foo"] [])])).2 =
      .ok { ty := .ref false none (.path ["output", "Foo"] []), deps := [⟨[], "Foo"⟩], kind := .reference } ∧
    (convertType {} [] 5 .withinReference []
      (.path ["__bindgen_marker_Reference"] [.ptr true (.path ["root", "Foo"] [])])).2 =
      .ok { ty := .path ["core", "pin", "Pin"] [.ref true none (.path ["output", "Foo"] [])],
            deps := [⟨[], "Foo"⟩], kind := .mutableReference } := by
  decide_known

/-- **C58 is false** in the other direction: a parameter declared through a typedef of a const reference
is reported as a regular type. -/
theorem kind_typedef_ref_false :
    (convertType exRefTypedefs [] 5 .outerType [] (.path ["root", "ConstRef"] [])).2 =
      .ok { ty := .ref false none (.path ["output", "Foo"] []), deps := [⟨[], "ConstRef"⟩], kind := .regular } := by
  decide_known

/-- **C58 is false** in the other direction: a parameter declared through a typedef of a reference is taken
for an instantiation of a template called `Pin`; a class standing for `Foo&` is declared. -/
theorem kind_typedef_mut_ref_false :
    (convertType exRefTypedefs [] 5 .outerType [] (.path ["root", "MutRef"] [])).2 =
      .ok { ty := .path ["output", "Foo_AutocxxConcrete"] [],
            deps := [⟨[], "MutRef"⟩, ⟨["core", "pin"], "Pin"⟩, ⟨[], "Foo_AutocxxConcrete"⟩],
            extra := [.concreteType ⟨⟨[], "Foo_AutocxxConcrete"⟩, none⟩
              (some (.path ["core", "pin", "Pin"] [.ref true none (.path ["output", "Foo"] [])])) "Foo&"],
            kind := .regular } := by
  decide_known

/-! ### The blocklist -/

/-- The user asked for nothing to be done with the C++ type of this name. -/
def Blocked (env : ConvEnv) (q : QName) : Prop := q.toCppName ∈ env.cfg.blocklist

theorem checked_not_blocked {env : ConvEnv} {q : QName} (h : checkTypeName env q = .ok ()) : ¬ Blocked env q := by
  rw [checkTypeName] at h
  split at h
  · cases h
  · cases h
  · split at h
    · cases h
    · rename_i hb
      simpa [Config.isOnBlocklist, Blocked] using hb

theorem checked_valid {env : ConvEnv} {q : QName} (h : checkTypeName env q = .ok ()) :
    validateIdentOkForCxx q.name = .ok := by
  rw [checkTypeName] at h
  split at h
  · cases h
  · cases h
  · assumption

/-- A path names a type. -/
theorem uses_self {s : List String} {a : List Ty} {tn : QName} (h : QName.ofTypePath s = some tn) :
    UsesName (.path s a) tn := .self h

theorem details_cppName {q r : QName} {d : TypeDetails} (hq : knownGet q = some d) (hr : knownGet r = some d) :
    q.toCppName = r.toCppName := by
  rw [QName.toCppName, QName.toCppName, specialCppName, specialCppName, hq, hr]
  rfl

theorem substitutePath_cppName {tn q : QName} {s : List String} (hs : QName.ofTypePath s = some tn)
    (h : QName.ofTypePath (substitutePath tn s) = some q) : q.toCppName = tn.toCppName := by
  cases hk : knownGet tn with
  | some d => exact details_cppName (substitutePath_details hk h) hk
  | none =>
    rcases substitutePath_name hs h with ⟨d, hd⟩ | rfl
    · rw [substitutePath.eq_def, considerSubstitution, hk] at h
      cases s with
      | nil => cases hs
      | cons f r =>
        simp only [Option.map_none] at h
        by_cases hf : f = "root"
        · subst hf
          simp only [QName.ofTypePath, true_or, or_true, if_true] at h hs
          rw [h] at hs
          cases hs
          rfl
        · rw [if_neg hf, hs] at h
          cases h
          rfl
    · rfl

theorem toTypePath_cppName {n q : QName} (h : QName.ofTypePath n.toTypePath = some q) : q.toCppName = n.toCppName := by
  cases hk : knownGet n with
  | some d =>
    obtain ⟨r', h1, h2⟩ := substitute_details hk
    rw [QName.toTypePath.eq_def, considerSubstitution, hk] at h
    simp only [Option.map_some] at h
    rw [h1] at h
    cases h
    exact details_cppName h2 hk
  | none =>
    rw [QName.toTypePath.eq_def, considerSubstitution, hk] at h
    simp only [Option.map_none, QName.ofTypePath, or_true, if_true] at h
    have := fromSegs_list h
    have e : q.ns ++ [q.name] = n.ns ++ [n.name] := this
    have h1 := List.append_inj_left' e rfl
    have h2 := List.append_inj_right' e rfl
    cases q; cases n
    simp only [List.cons.injEq, and_true] at h1 h2
    subst h1; subst h2; rfl

set_option maxRecDepth 10000 in
theorem str_table : ∀ n ∈ knownTypesLit.allNames,
    OptAll (fun d => d.behavior = .rustStr → d.cppName = "rust::Str") (knownTypesLit.get n) := by decide +kernel

theorem str_cppName {q : QName} (h : shouldDereferenceInCpp q = true) : q.toCppName = "rust::Str" := by
  rw [shouldDereferenceInCpp] at h
  cases hk : knownGet q with
  | none => rw [hk] at h; cases h
  | some d =>
    rw [hk] at h
    rw [QName.toCppName, specialCppName, hk]
    refine known_forall (fun _ d => d.behavior = .rustStr → d.cppName = "rust::Str") ?_ hk (by simpa using h)
    intro n hn d hd
    have := str_table n hn
    rw [hd] at this
    exact this

theorem str_cppName' : QName.toCppName ⟨[], "str"⟩ = "rust::Str" := str_cppName (by decide_known)

theorem uses_str {q : QName} (h : UsesName (.ref false none (.path ["str"] [])) q) : q = ⟨[], "str"⟩ := by
  cases h with
  | ref h =>
    cases h with
    | self h => cases h; rfl
    | arg hm => cases hm

theorem argsOk_state {R : Concretes → Ty → Concretes → Annotated Ty → Prop}
    (hR : ∀ s x s' a, R s x s' a → Grows s s') {st st' : Concretes} {l : List Ty}
    {b : Annotated (List Ty)} (h : ArgsOk R st l st' b) :
    Grows st st' ∧ ∀ t ∈ b.ty, ∃ s s' x a, R s x s' a ∧ a.ty = t ∧ Grows st s ∧ Grows s' st' := by
  induction h with
  | nil => exact ⟨.refl, by simp⟩
  | cons h hr ih =>
    have g := hR _ _ _ _ h
    refine ⟨g.trans ih.1, fun t ht => ?_⟩
    rcases List.mem_cons.1 ht with rfl | ht
    · exact ⟨_, _, _, _, h, rfl, .refl, ih.1⟩
    · obtain ⟨s, s', x, a, h1, h2, h3, h4⟩ := ih.2 t ht
      exact ⟨s, s', x, a, h1, h2, g.trans h3, h4⟩

theorem convert_ok_grows {env : ConvEnv} {ns : List String} {n : Nat} {ctx : ConvCtx} {st st' : Concretes}
    {ty : Ty} {a : Annotated Ty} (h : convertType env ns n ctx st ty = (st', .ok a)) : Grows st st' := by
  have := convertType_grows env ns n ctx st ty
  rw [h] at this
  exact this

/-- **C59 (partial)**: if no typedef leads to a blocked type, no blocked type is used by a converted type,
except under the names invented for template instantiations. (`Pin` cannot be blocked.) -/
theorem blocklist_partial (env : ConvEnv) (ns : List String) (n : Nat) (ctx : ConvCtx) (st st' : Concretes)
    (ty : Ty) (a : Annotated Ty)
    (htd : ∀ x t, AMap.get? env.typedefs x = some t → ∀ q, UsesName t q → ¬ Blocked env q)
    (hpin : ¬ Blocked env ⟨["core", "pin"], "Pin"⟩)
    (h : convertType env ns n ctx st ty = (st', .ok a)) (q : QName) (hq : UsesName a.ty q) (hbl : Blocked env q) :
    ∃ cpp r, AMap.get? st' cpp = some r ∧ r.toCppName = q.toCppName := by
  induction n generalizing ctx st st' ty a q with
  | zero => cases h
  | succ n ih =>
    have checked : ∀ {segs args q' segs' s as tn deps}, Prepared env ns segs args q' segs' (.path s as tn deps) →
        ¬ Blocked env tn := by
      intro segs args q' segs' s as tn deps hp
      rcases prepared_inv hp with ⟨_, e⟩ | ⟨_, _, _, he, htn, e⟩ | ⟨mu, e', he, e⟩ | ⟨t, he, h1, _, e⟩
      · cases e; exact checked_not_blocked hp.checked
      · cases e
        obtain ⟨x, _, hx⟩ := endsAt_target he rfl
        exact htd x _ hx _ (.self htn)
      · cases e
      · cases e
    have byName : ∀ {r : QName}, r.toCppName = q.toCppName → ¬ Blocked env r → False := fun he hn =>
      hn (by rw [Blocked, he]; exact hbl)
    cases convertType_ok h with
    | marker hm h' hr => exact ih _ _ _ _ _ hr _ hq hbl
    | lvalue h' hr =>
      rename_i mu e b
      cases mu with
      | false =>
        cases hq with
        | ref hq => exact ih _ _ _ _ _ hr _ hq hbl
      | true =>
        cases hq with
        | self h => cases h; exact absurd hbl hpin
        | arg hm hq =>
          rcases List.mem_cons.1 hm with rfl | hm
          · cases hq with
            | ref hq => exact ih _ _ _ _ _ hr _ hq hbl
          · cases hm
    | rvalue h' hp hr => cases hq with | ptr hq => exact ih _ _ _ _ _ hr _ hq hbl
    | ref hr => cases hq with | ref hq => exact ih _ _ _ _ _ hr _ hq hbl
    | array hr => cases hq with | array hq => exact ih _ _ _ _ _ hr _ hq hbl
    | ptr hp hr => cases hq with | ptr hq => exact ih _ _ _ _ _ hr _ hq hbl
    | done hp =>
      rcases prepared_inv hp with ⟨_, e⟩ | ⟨_, _, _, _, _, e⟩ | ⟨mu, e', he, e⟩ | ⟨t, he, h1, _, e⟩
      · cases e
      · cases e
      · cases e
        obtain ⟨x, _, hx⟩ := endsAt_target he rfl
        exact absurd hbl (htd x _ hx _ hq)
      · cases e
        obtain ⟨x, _, hx⟩ := endsAt_target he rfl
        exact absurd hbl (htd x _ hx _ hq)
    | plain hp hf =>
      obtain ⟨hn, _, _⟩ := prepared_path hp
      rcases finishPath_ok hf with ⟨rfl, _⟩ | ⟨rfl, segs, args, q', h1, h2, h3⟩
      · cases hq with
        | self h => exact (byName (substitutePath_cppName hn h).symm (checked hp)).elim
        | arg hm => cases hm
      · cases h1
        obtain rfl := uses_str hq
        refine (byName (r := _) ?_ (checked hp)).elim
        rw [← substitutePath_cppName hn h2, str_cppName h3, str_cppName']
    | concrete hp hb hi hqn hig ht hf =>
      obtain ⟨cpp, _, hget⟩ := templated_ok ht
      rcases finishPath_ok hf with ⟨rfl, _⟩ | ⟨rfl, segs, args, q', h1, h2, h3⟩
      · cases hq with
        | self h =>
          exact ⟨cpp, _, hget, (toTypePath_cppName h).symm⟩
        | arg hm => cases hm
      · cases h1
        obtain rfl := uses_str hq
        exact ⟨cpp, _, hget, by rw [← toTypePath_cppName h2, str_cppName h3, str_cppName']⟩
    | container hp hb hargs hk hf =>
      obtain ⟨hn, _, _⟩ := prepared_path hp
      rcases finishPath_ok hf with ⟨rfl, _⟩ | ⟨rfl, segs, args, q', h1, h2, h3⟩
      · cases hq with
        | self h => exact (byName (substitutePath_cppName hn h).symm (checked hp)).elim
        | arg hm hq =>
          obtain ⟨_, hmem⟩ := argsOk_state (fun s x s' a h => convert_ok_grows h) hargs
          obtain ⟨s, s', x, b, h1, rfl, _, h3⟩ := hmem _ hm
          obtain ⟨cpp, r, h4, h5⟩ := ih _ _ _ _ _ h1 _ hq hbl
          exact ⟨cpp, r, h3.get? h4, h5⟩
      · cases h1
        rw [container_not_str hb h2] at h3
        cases h3

/-- **C59**: a type whose name is written out is converted only if cxx accepts the name and the user did not
block it. -/
theorem written_name_checked (env : ConvEnv) (ns : List String) (n : Nat) (ctx : ConvCtx) (st st' : Concretes)
    (segs : List String) (args : List Ty) (q : QName) (a : Annotated Ty) (hq : QName.fromSegs segs = some q)
    (h : convertType env ns n ctx st (.path ("root" :: segs) args) = (st', .ok a)) :
    validateIdentOkForCxx q.name = .ok ∧ ¬ Blocked env q := by
  cases n with
  | zero => cases h
  | succ n =>
    have nomark : ∀ m, m ≠ "root" → unwrapMarker m ("root" :: segs) args = none := by
      intro m hm
      cases segs with
      | nil => simp [unwrapMarker, Ne.symm hm]
      | cons => simp [unwrapMarker]
    have noref : ∀ rv, unwrapReference ("root" :: segs) args rv = none := by
      intro rv
      rw [unwrapReference, nomark _ (by cases rv <;> decide)]
    have hprep : ∀ {q' segs' r}, Prepared env ns ("root" :: segs) args q' segs' r →
        validateIdentOkForCxx q.name = .ok ∧ ¬ Blocked env q := by
      intro q' segs' r hp
      have h1 := hp.qualified
      rw [qualifyPath] at h1
      simp only [true_or, if_true] at h1
      cases h1
      have h2 := hp.name
      simp only [QName.ofTypePath, true_or, if_true] at h2
      rw [hq] at h2
      cases h2
      exact ⟨checked_valid hp.checked, checked_not_blocked hp.checked⟩
    cases convertType_ok h with
    | marker hm h' hr =>
      rw [nomark _ (by rcases hm with rfl | rfl <;> decide)] at h'
      cases h'
    | lvalue h' hr => rw [noref] at h'; cases h'
    | rvalue h' hp hr => rw [noref] at h'; cases h'
    | done hp => exact hprep hp
    | plain hp hf => exact hprep hp
    | concrete hp hb hi hqn hig ht hf => exact hprep hp
    | container hp hb hargs hk hf => exact hprep hp

/-- The user blocked `Secret`. -/
def exBlocked : ConvEnv := { cfg := { blocklist := ["Secret"] } }

/-- `Secret`, `Secret *` and `std::unique_ptr<Secret>` are refused, and the conditions of
`blocklist_partial` hold. -/
example : (convertType exBlocked [] 5 .outerType [] (.path ["root", "Secret"] [])).2 = .err (.blocked ⟨[], "Secret"⟩) ∧
    (convertType exBlocked [] 5 .outerType [] (.ptr true (.path ["root", "Secret"] []))).2 =
      .err (.blocked ⟨[], "Secret"⟩) ∧
    (convertType exBlocked [] 5 .outerType [] (exUnique (.path ["root", "Secret"] []))).2 =
      .err (.blocked ⟨[], "Secret"⟩) ∧
    (convertType exBlocked [] 5 .outerType [] (exUnique (.path ["root", "Other"] []))).2 =
      .ok { ty := .path ["cxx", "UniquePtr"] [.path ["output", "Other"] []],
            deps := [⟨["std"], "unique_ptr"⟩, ⟨[], "Other"⟩], kind := .regular } := by
  decide_known

example : ¬ Blocked exBlocked ⟨["core", "pin"], "Pin"⟩ := by
  have : ¬ (QName.toCppName ⟨["core", "pin"], "Pin"⟩ ∈ ["Secret"]) := by decide_known
  exact this

/-- **C59 is false** of the arguments of a template which is not built in: they are neither checked nor
recorded as dependencies, and the C++ code which is generated mentions the blocked type. -/
theorem blocklist_template_false :
    (convertType exBlocked [] 5 .outerType [] (exFoo (.path ["root", "Secret"] []))).2 =
      .ok { ty := .path ["output", "Foo_Secret_AutocxxConcrete"] [],
            deps := [⟨[], "Foo"⟩, ⟨[], "Foo_Secret_AutocxxConcrete"⟩],
            extra := [.concreteType ⟨⟨[], "Foo_Secret_AutocxxConcrete"⟩, none⟩
              (some (.path ["output", "Foo"] [.path ["root", "Secret"] []])) "Foo<Secret>"],
            kind := .regular } := by
  decide_known

/-- The arguments of such a template are not converted either, so a reference among them is spelled in
the C++ code with the name of a marker which exists only in the input from bindgen. -/
theorem template_reference_argument_false :
    (convertType {} [] 5 .outerType [] (exFoo (.path ["__bindgen_marker_Reference"] [.ptr false exInt]))).2 =
      .ok { ty := .path ["output", "Foo_bindgen_marker_Reference_const_int_AutocxxConcrete"] [],
            deps := [⟨[], "Foo"⟩, ⟨[], "Foo_bindgen_marker_Reference_const_int_AutocxxConcrete"⟩],
            extra := [.concreteType ⟨⟨[], "Foo_bindgen_marker_Reference_const_int_AutocxxConcrete"⟩, none⟩
              (some (.path ["output", "Foo"] [.path ["__bindgen_marker_Reference"] [.ptr false exInt]]))
              "Foo<__bindgen_marker_Reference<const int*>>"],
            kind := .regular } := by
  decide_known

/-! ### Declarations of template instantiations -/

/-- Somewhere in the type is one of the built-in containers. -/
inductive UsesContainer : Ty → Prop
  | self {segs : List String} {args : List Ty} (ha : args ≠ []) (hp : segs ≠ ["core", "pin", "Pin"]) :
      UsesContainer (.path segs args)
  | arg {segs : List String} {args : List Ty} {t : Ty} (hm : t ∈ args) (h : UsesContainer t) :
      UsesContainer (.path segs args)
  | ref {mu : Bool} {lt : Option String} {e : Ty} (h : UsesContainer e) : UsesContainer (.ref mu lt e)
  | ptr {mu : Bool} {e : Ty} (h : UsesContainer e) : UsesContainer (.ptr mu e)
  | array {e : Ty} {n : String} (h : UsesContainer e) : UsesContainer (.array e n)

theorem templated_extra {names : CppNameMap} {st st' : Concretes} {rs : Ty} {r : QName × Option NullApi}
    (h : templatedTypename names st rs = (st', .ok r)) {cpp : String} {q : QName}
    (hn : AMap.get? st cpp = none) (hs : AMap.get? st' cpp = some q) :
    r.2 = some (.concreteType ⟨q, none⟩ (some rs) cpp) := by
  rw [templatedTypename] at h
  split at h
  · cases h
  · cases h
  · split at h
    · cases h
      rw [hn] at hs
      cases hs
    · dsimp only at h
      split at h
      · rename_i cpp' _ _ _ _
        cases h
        by_cases he : cpp = cpp'
        · subst he
          rw [AMap.get?_insert_self] at hs
          cases hs
          rfl
        · rw [AMap.get?_insert_of_ne _ _ (Ne.symm he), hn] at hs
          cases hs
      · cases h

/-- **C22 (partial)**: a template instantiation which gets its name in a conversion is declared by it,
unless the type contains one of the built-in containers. -/
theorem instantiation_declared_partial (env : ConvEnv) (ns : List String) (n : Nat) (ctx : ConvCtx)
    (st st' : Concretes) (ty : Ty) (a : Annotated Ty) (h : convertType env ns n ctx st ty = (st', .ok a))
    (hc : ¬ UsesContainer a.ty) (cpp : String) (q : QName) (hn : AMap.get? st cpp = none)
    (hs : AMap.get? st' cpp = some q) : ∃ rs, .concreteType ⟨q, none⟩ (some rs) cpp ∈ a.extra := by
  induction n generalizing ctx st st' ty a with
  | zero => cases h
  | succ n ih =>
    have same : st' = st → False := fun e => by rw [e, hn] at hs; cases hs
    cases convertType_ok h with
    | marker hm h' hr => exact ih _ _ _ _ _ hr hc hn hs
    | lvalue h' hr =>
      rename_i mu e b
      refine ih _ _ _ _ b hr (fun hu => hc ?_) hn hs
      cases mu with
      | false => exact .ref hu
      | true => exact .arg (List.mem_singleton_self _) (.ref hu)
    | rvalue h' hp hr =>
      rename_i b
      exact ih _ _ _ _ b hr (fun hu => hc (.ptr hu)) hn hs
    | ref hr =>
      rename_i b
      exact ih _ _ _ _ b hr (fun hu => hc (.ref hu)) hn hs
    | array hr =>
      rename_i b
      exact ih _ _ _ _ b hr (fun hu => hc (.array hu)) hn hs
    | ptr hp hr =>
      rename_i b
      exact ih _ _ _ _ b hr (fun hu => hc (.ptr hu)) hn hs
    | done hp => exact (same rfl).elim
    | plain hp hf => exact (same rfl).elim
    | concrete hp hb hi hqn hig ht hf =>
      have := templated_extra ht hn hs
      rcases finishPath_ok hf with ⟨rfl, _⟩ | ⟨rfl, _⟩
      · exact ⟨_, by simp only [this]; exact List.mem_singleton_self _⟩
      · exact ⟨_, by simp only [this]; exact List.mem_singleton_self _⟩
    | container hp hb hargs hk hf =>
      rcases finishPath_ok hf with ⟨rfl, _⟩ | ⟨rfl, segs, args, q', h1, h2, h3⟩
      · refine absurd (.self ?_ ?_) hc
        · cases hargs; simp
        · intro e
          obtain ⟨d, hd, hgb⟩ := container_known hb
          have hd' := substitutePath_details (r := ⟨["core", "pin"], "Pin"⟩) hd (by rw [e]; rfl)
          have hpin : cxxGenericBehavior ⟨["core", "pin"], "Pin"⟩ = .not := by decide_known
          rw [cxxGenericBehavior, hd'] at hpin
          exact hb (hgb.symm.trans hpin)
      · cases h1
        rw [container_not_str hb h2] at h3
        cases h3

/-- **C22 is false** for an instantiation inside a container: it gets a name, which is used, but is not
declared. -/
theorem instantiation_declared_false :
    convertType {} [] 5 .outerType [] (exUnique (exFoo exInt)) =
      ([("Foo<int>", ⟨[], "Foo_int_AutocxxConcrete"⟩)],
       .ok { ty := .path ["cxx", "UniquePtr"] [.path ["output", "Foo_int_AutocxxConcrete"] []],
             deps := [⟨["std"], "unique_ptr"⟩, ⟨[], "Foo"⟩, ⟨[], "Foo_int_AutocxxConcrete"⟩],
             extra := [], kind := .regular }) := by
  decide_known

end Verif
