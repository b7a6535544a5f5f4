import Verif.TypedefProps
import Verif.TemplateNameProps
import Verif.KnownTypesProps

/-!
# Properties of the type converter
-/

set_option autoImplicit false

namespace Verif

open Relation (ReflTransGen)

/-! ### What a successful conversion went through

`ConvStep R` is one level of the recursion, `R` describing the recursive calls. These are proof devices,
not specifications. -/

/-- The arguments of a container, converted one after the other. -/
inductive ArgsOk (R : Concretes → Ty → Concretes → Annotated Ty → Prop) :
    Concretes → List Ty → Concretes → Annotated (List Ty) → Prop
  | nil {st : Concretes} : ArgsOk R st [] st { ty := [], deps := [], kind := .regular }
  | cons {st st' st'' : Concretes} {t : Ty} {r : List Ty} {a : Annotated Ty} {b : Annotated (List Ty)}
      (h : R st t st' a) (hr : ArgsOk R st' r st'' b) :
      ArgsOk R st (t :: r) st'' { ty := a.ty :: b.ty, deps := a.deps ++ b.deps, extra := a.extra ++ b.extra,
                                  kind := .regular }

/-- Qualifying, checking and resolving a path. -/
structure Prepared (env : ConvEnv) (ns : List String) (segs : List String) (args : List Ty) (q : QName)
    (segs' : List String) (r : Resolved) : Prop where
  qualified : qualifyPath env ns segs = .ok segs'
  name : QName.ofTypePath segs' = some q
  checked : checkTypeName env q = .ok ()
  resolved : resolvePath env segs' args q = .ok r

/-- One level of a successful conversion. -/
inductive ConvStep (env : ConvEnv) (ns : List String)
    (R : ConvCtx → Concretes → Ty → Concretes → Annotated Ty → Prop) :
    ConvCtx → Concretes → Ty → Concretes → Annotated Ty → Prop
  | marker {ctx st m segs args t st' a}
      (hm : m = "__bindgen_marker_UnusedTemplateParam" ∨ m = "__bindgen_marker_Opaque")
      (h : unwrapMarker m segs args = some t) (hr : R ctx st t st' a) :
      ConvStep env ns R ctx st (.path segs args) st' a
  | lvalue {ctx st segs args mu e st'} {a : Annotated Ty} (h : unwrapReference segs args false = some (mu, e))
      (hr : R .withinReference st e st' a) :
      ConvStep env ns R ctx st (.path segs args) st' { a with
        ty := if mu then .path ["core", "pin", "Pin"] [.ref true none a.ty] else .ref false none a.ty
        kind := if mu then .mutableReference else .reference }
  | rvalue {ctx st segs args mu e st'} {a : Annotated Ty} (h : unwrapReference segs args true = some (mu, e))
      (hp : ensurePointee e = .ok ()) (hr : R .withinReference st e st' a) :
      ConvStep env ns R ctx st (.path segs args) st' { a with ty := .ptr mu a.ty, kind := .rvalueReference }
  | ref {ctx st mu lt e st'} {a : Annotated Ty} (hr : R .withinReference st e st' a) :
      ConvStep env ns R ctx st (.ref mu lt e) st' { a with ty := .ref mu lt a.ty, kind := .reference }
  | array {ctx st e n st'} {a : Annotated Ty} (hr : R .withinReference st e st' a) :
      ConvStep env ns R ctx st (.array e n) st' { a with ty := .array a.ty n, kind := .regular }
  | ptr {ctx st mu e st'} {a : Annotated Ty} (hp : ensurePointee e = .ok ()) (hr : R .withinReference st e st' a) :
      ConvStep env ns R ctx st (.ptr mu e) st' { a with ty := .ptr mu a.ty, kind := .pointer }
  | done {ctx st segs args q segs' a} (hp : Prepared env ns segs args q segs' (.done a)) :
      ConvStep env ns R ctx st (.path segs args) st a
  | plain {ctx st segs args q segs' s tn deps a} (hp : Prepared env ns segs args q segs' (.path s [] tn deps))
      (hf : finishPath env ctx { ty := .path (substitutePath tn s) [], deps := deps, kind := .regular } = .ok a) :
      ConvStep env ns R ctx st (.path segs args) st a
  | concrete {ctx st segs args q segs' s x xs tn deps qn st' r a}
      (hp : Prepared env ns segs args q segs' (.path s (x :: xs) tn deps))
      (hb : cxxGenericBehavior tn = .not) (hi : (x :: xs).any (isTypeParam ctx) = false)
      (hq : QName.ofTypePath (substitutePath tn s) = some qn) (hn : qn ∉ env.ignored)
      (ht : templatedTypename env.names st (.path (substitutePath tn s) (x :: xs)) = (st', .ok r))
      (hf : finishPath env ctx { ty := .path r.1.toTypePath [], deps := deps ++ [r.1], extra := r.2.toList,
                                 kind := .regular } = .ok a) :
      ConvStep env ns R ctx st (.path segs args) st' a
  | container {ctx st segs args q segs' s x xs tn deps st' inner k a}
      (hp : Prepared env ns segs args q segs' (.path s (x :: xs) tn deps))
      (hb : cxxGenericBehavior tn ≠ .not) (hargs : ArgsOk (R .withinContainer) st (x :: xs) st' inner)
      (hk : confirmPayload env tn (cxxGenericBehavior tn) inner.ty = .ok k)
      (hf : finishPath env ctx { ty := .path (substitutePath tn s) inner.ty, deps := deps ++ inner.deps,
                                 kind := k } = .ok a) :
      ConvStep env ns R ctx st (.path segs args) st' a

theorem thenDo_ok {α β : Type} {r : Concretes × CRes α} {f : Concretes → α → Concretes × CRes β}
    {st : Concretes} {b : β} (h : thenDo r f = (st, .ok b)) : ∃ s a, r = (s, .ok a) ∧ f s a = (st, .ok b) := by
  obtain ⟨s, r⟩ := r
  cases r with
  | ok a => exact ⟨s, a, rfl, h⟩
  | err e => cases h
  | panic => cases h
  | outOfFuel => cases h

theorem convertArgs_ok {f : Concretes → Ty → Concretes × CRes (Annotated Ty)} :
    ∀ {args : List Ty} {st st' : Concretes} {b : Annotated (List Ty)}, convertArgs f st args = (st', .ok b) →
      ArgsOk (fun s t s' a => f s t = (s', .ok a)) st args st' b
  | [], st, st', b, h => by cases h; exact .nil
  | t :: r, st, st', b, h => by
    obtain ⟨s, a, h1, h2⟩ := thenDo_ok h
    obtain ⟨s', b', h3, h4⟩ := thenDo_ok h2
    cases h4
    exact .cons h1 (convertArgs_ok h3)

/-- What following typedefs gave. -/
theorem prepared_inv {env : ConvEnv} {ns segs : List String} {args : List Ty} {q : QName} {segs' : List String}
    {r : Resolved} (h : Prepared env ns segs args q segs' r) :
    (EndsAt env.typedefs q none ∧ r = .path segs' args q [q]) ∨
    (∃ s a tn, EndsAt env.typedefs q (some (.path s a)) ∧ QName.ofTypePath s = some tn ∧
      r = .path s a tn [q, tn]) ∨
    (∃ mu e, EndsAt env.typedefs q (some (.ptr mu e)) ∧
      r = .done { ty := .ptr mu e, deps := [q], kind := .pointer }) ∨
    ∃ t, EndsAt env.typedefs q (some t) ∧ (∀ s a, t ≠ .path s a) ∧ (∀ mu e, t ≠ .ptr mu e) ∧
      r = .done { ty := t, deps := [q], kind := .regular } := by
  have hr := h.resolved
  rw [resolvePath] at hr
  cases hres : resolveTypedef env.typedefs q with
  | ok r' =>
    have he := (resolve_ok_iff _ _ _).1 hres
    rw [hres, CRes.bind] at hr
    split at hr
    · cases hr; exact .inl ⟨he, rfl⟩
    · split at hr
      · cases hr
      · rename_i tn htn
        cases hr
        exact .inr (.inl ⟨_, _, _, he, htn, rfl⟩)
    · cases hr
      exact .inr (.inr (.inl ⟨_, _, he, rfl⟩))
    · rename_i t hne hne'
      cases hr
      exact .inr (.inr (.inr ⟨t, he, hne, hne', rfl⟩))
  | err e => rw [hres] at hr; cases hr
  | panic => rw [hres] at hr; cases hr
  | outOfFuel => rw [hres] at hr; cases hr

theorem done_finish {env : ConvEnv} {ns segs : List String} {args : List Ty} {q : QName} {segs' : List String}
    {ctx : ConvCtx} {a b : Annotated Ty} (h : Prepared env ns segs args q segs' (.done a))
    (hf : finishPath env ctx a = .ok b) : a = b := by
  have hne : ∀ s x, a.ty ≠ .path s x := by
    rcases prepared_inv h with ⟨_, e⟩ | ⟨_, _, _, _, _, e⟩ | ⟨_, _, _, e⟩ | ⟨_, _, hp, _, e⟩
    · cases e
    · cases e
    · cases e; intros; simp
    · cases e; exact hp
  rw [finishPath] at hf
  split at hf
  · rename_i hs
    exact absurd hs (hne _ _)
  · cases hf; rfl

theorem convertType_ok {env : ConvEnv} {ns : List String} {n : Nat} {ctx : ConvCtx} {st st' : Concretes}
    {ty : Ty} {a : Annotated Ty} (h : convertType env ns (n + 1) ctx st ty = (st', .ok a)) :
    ConvStep env ns (fun c s t s' b => convertType env ns n c s t = (s', .ok b)) ctx st ty st' a := by
  rw [convertType.eq_def] at h
  dsimp only at h
  split at h
  · rename_i segs args
    split at h
    · rename_i hm
      exact .marker (.inl rfl) hm h
    · split at h
      · rename_i hm
        exact .marker (.inr rfl) hm h
      · split at h
        · rename_i hm
          obtain ⟨s, b, h1, h2⟩ := thenDo_ok h
          cases h2
          exact .lvalue hm h1
        · split at h
          · rename_i hm
            obtain ⟨s, b, h1, h2⟩ := thenDo_ok h
            obtain ⟨rfl, hp⟩ := Prod.mk.inj h1
            obtain ⟨s', b', h3, h4⟩ := thenDo_ok h2
            cases h4
            exact .rvalue hm hp h3
          · obtain ⟨s, b, h1, h2⟩ := thenDo_ok h
            rw [convertPlainPath] at h1
            obtain ⟨s1, segs', h3, h4⟩ := thenDo_ok h1
            obtain ⟨rfl, hq⟩ := Prod.mk.inj h3
            split at h4
            · cases h4
            · rename_i q hname
              obtain ⟨s2, u, h5, h6⟩ := thenDo_ok h4
              obtain ⟨rfl, hcheck⟩ := Prod.mk.inj h5
              obtain ⟨s3, r, h7, h8⟩ := thenDo_ok h6
              obtain ⟨rfl, hres⟩ := Prod.mk.inj h7
              obtain ⟨rfl, hfin⟩ := Prod.mk.inj h2
              have hp : Prepared env ns segs args q segs' r := ⟨hq, hname, hcheck, hres⟩
              split at h8
              · cases h8
                obtain rfl := done_finish hp hfin
                exact .done hp
              · rename_i s' args' tn deps
                rw [convertGeneric.eq_def] at h8
                split at h8
                · cases h8
                  exact .plain hp hfin
                · rename_i x xs
                  split at h8
                  · rename_i hb
                    split at h8
                    · cases h8
                    · rename_i hi
                      split at h8
                      · cases h8
                      · rename_i qn hqn
                        split at h8
                        · cases h8
                        · rename_i hig
                          obtain ⟨s4, r', h9, h10⟩ := thenDo_ok h8
                          cases h10
                          exact .concrete hp hb (by simpa using hi) hqn hig h9 hfin
                  · rename_i hb
                    obtain ⟨s4, inner, h9, h10⟩ := thenDo_ok h8
                    split at h10
                    · rename_i k hk
                      cases h10
                      exact .container hp hb (convertArgs_ok h9) hk hfin
                    · cases h10
                    · cases h10
                    · cases h10
  · obtain ⟨s, b, h1, h2⟩ := thenDo_ok h
    cases h2
    exact .ref h1
  · obtain ⟨s, b, h1, h2⟩ := thenDo_ok h
    cases h2
    exact .array h1
  · obtain ⟨s, b, h1, h2⟩ := thenDo_ok h
    obtain ⟨rfl, hp⟩ := Prod.mk.inj h1
    obtain ⟨s', b', h3, h4⟩ := thenDo_ok h2
    cases h4
    exact .ptr hp h3
  · cases h

/-! ### More fuel changes nothing -/

theorem thenDo_fuel {α β : Type} {r : Concretes × CRes α} {f : Concretes → α → Concretes × CRes β}
    (h : (thenDo r f).2 ≠ .outOfFuel) : r.2 ≠ .outOfFuel := by
  obtain ⟨s, r⟩ := r
  cases r with
  | outOfFuel => exact absurd rfl h
  | ok a => simp
  | err e => simp
  | panic => simp

theorem thenDo_congr {α β : Type} {r : Concretes × CRes α} {f g : Concretes → α → Concretes × CRes β}
    (h : (thenDo r f).2 ≠ .outOfFuel) (hfg : ∀ s a, (f s a).2 ≠ .outOfFuel → g s a = f s a) :
    thenDo r g = thenDo r f := by
  obtain ⟨s, r⟩ := r
  cases r with
  | ok a => exact hfg s a h
  | err e => rfl
  | panic => rfl
  | outOfFuel => rfl

theorem convertArgs_congr {f g : Concretes → Ty → Concretes × CRes (Annotated Ty)}
    (hfg : ∀ s t, (f s t).2 ≠ .outOfFuel → g s t = f s t) : ∀ (args : List Ty) (st : Concretes),
    (convertArgs f st args).2 ≠ .outOfFuel → convertArgs g st args = convertArgs f st args
  | [], _, _ => rfl
  | t :: r, st, h => by
    rw [convertArgs] at h
    rw [convertArgs, convertArgs, hfg st t (thenDo_fuel h)]
    refine thenDo_congr h fun s a h => ?_
    rw [convertArgs_congr hfg r s (thenDo_fuel h)]

theorem convertGeneric_congr {f g : Concretes → Ty → Concretes × CRes (Annotated Ty)}
    (hfg : ∀ s t, (f s t).2 ≠ .outOfFuel → g s t = f s t) (env : ConvEnv) (ctx : ConvCtx) (st : Concretes)
    (tn : QName) (segs : List String) (args : List Ty) (deps : List QName)
    (h : (convertGeneric f env ctx st tn segs args deps).2 ≠ .outOfFuel) :
    convertGeneric g env ctx st tn segs args deps = convertGeneric f env ctx st tn segs args deps := by
  cases args with
  | nil => rfl
  | cons x xs =>
    rw [convertGeneric] at h
    rw [convertGeneric, convertGeneric]
    cases hb : cxxGenericBehavior tn with
    | not => rfl
    | cppPtr => rw [hb] at h; dsimp only at h ⊢; rw [convertArgs_congr hfg _ _ (thenDo_fuel h)]
    | cppVector => rw [hb] at h; dsimp only at h ⊢; rw [convertArgs_congr hfg _ _ (thenDo_fuel h)]
    | rust => rw [hb] at h; dsimp only at h ⊢; rw [convertArgs_congr hfg _ _ (thenDo_fuel h)]

theorem convertPlainPath_congr {f g : Concretes → Ty → Concretes × CRes (Annotated Ty)}
    (hfg : ∀ s t, (f s t).2 ≠ .outOfFuel → g s t = f s t) (env : ConvEnv) (ns : List String) (ctx : ConvCtx)
    (st : Concretes) (segs : List String) (args : List Ty)
    (h : (convertPlainPath f env ns ctx st segs args).2 ≠ .outOfFuel) :
    convertPlainPath g env ns ctx st segs args = convertPlainPath f env ns ctx st segs args := by
  rw [convertPlainPath] at h ⊢
  rw [convertPlainPath]
  refine thenDo_congr h fun s segs h => ?_
  split at h
  · rfl
  · refine thenDo_congr h fun s _ h => thenDo_congr h fun s r h => ?_
    split at h
    · rfl
    · exact convertGeneric_congr hfg _ _ _ _ _ _ _ h

theorem convert_fuel_succ (env : ConvEnv) (ns : List String) : ∀ (n : Nat) (ctx : ConvCtx) (st : Concretes)
    (ty : Ty), (convertType env ns n ctx st ty).2 ≠ .outOfFuel →
    convertType env ns (n + 1) ctx st ty = convertType env ns n ctx st ty
  | 0, _, _, _, h => absurd rfl h
  | n + 1, ctx, st, ty, h => by
    have ih := convert_fuel_succ env ns n
    cases ty with
    | path segs args =>
      rw [convertType] at h ⊢
      rw [convertType]
      split at h
      · exact ih _ _ _ h
      · split at h
        · exact ih _ _ _ h
        · split at h
          · rw [ih _ _ _ (thenDo_fuel h)]
          · split at h
            · refine thenDo_congr h fun s _ h => ?_
              rw [ih _ _ _ (thenDo_fuel h)]
            · rw [convertPlainPath_congr (ih _) _ _ _ _ _ _ (thenDo_fuel h)]
    | ref mu lt e => rw [convertType] at h ⊢; rw [convertType, ih _ _ _ (thenDo_fuel h)]
    | array e k => rw [convertType] at h ⊢; rw [convertType, ih _ _ _ (thenDo_fuel h)]
    | ptr mu e =>
      rw [convertType] at h ⊢
      rw [convertType]
      refine thenDo_congr h fun s _ h => ?_
      rw [ih _ _ _ (thenDo_fuel h)]
    | other s => rfl

/-- Once the bound on the depth of the recursion is large enough, it does not matter how large it is. -/
theorem convert_fuel_mono (env : ConvEnv) (ns : List String) (n k : Nat) (ctx : ConvCtx) (st : Concretes)
    (ty : Ty) (h : (convertType env ns n ctx st ty).2 ≠ .outOfFuel) :
    convertType env ns (n + k) ctx st ty = convertType env ns n ctx st ty := by
  induction k with
  | zero => rfl
  | succ k ih => rw [← Nat.add_assoc, convert_fuel_succ _ _ _ _ _ _ (ih ▸ h), ih]

/-! ### Termination -/

/-- A type mentions a name: somewhere in it is a path with this name, perhaps after it is qualified by the
namespace. -/
inductive Mentions (ns : List String) : Ty → QName → Prop
  | self {segs : List String} {args : List Ty} {q : QName}
      (h : QName.ofTypePath segs = some q ∨ QName.ofTypePath ("output" :: ns ++ segs) = some q) :
      Mentions ns (.path segs args) q
  | arg {segs : List String} {args : List Ty} {t : Ty} {q : QName} (hm : t ∈ args) (h : Mentions ns t q) :
      Mentions ns (.path segs args) q
  | ref {mu : Bool} {lt : Option String} {e : Ty} {q : QName} (h : Mentions ns e q) : Mentions ns (.ref mu lt e) q
  | ptr {mu : Bool} {e : Ty} {q : QName} (h : Mentions ns e q) : Mentions ns (.ptr mu e) q
  | array {e : Ty} {n : String} {q : QName} (h : Mentions ns e q) : Mentions ns (.array e n) q

/-- The typedefs are declared in some order, each after everything its target mentions. -/
def DeclaredInOrder (env : ConvEnv) (ns : List String) : Prop :=
  ∃ position : QName → Nat, ∀ q t x, AMap.get? env.typedefs q = some t → Mentions ns t x →
    position x < position q

theorem endsAt_target {m : AMap QName Ty} {q : QName} {r : Option Ty} (h : EndsAt m q r) {t : Ty}
    (ht : r = some t) : ∃ x, ReflTransGen (Hop m) q x ∧ AMap.get? m x = some t := by
  induction h with
  | notTypedef _ => cases ht
  | unnamed h _ => cases ht; exact ⟨_, .refl, h⟩
  | last h ha hr _ => cases ht; exact ⟨_, .refl, h.1⟩
  | hop h hr ih =>
    obtain ⟨x, h1, h2⟩ := ih ht
    exact ⟨x, h1.head h, h2⟩

theorem confirmPayload_fuel (env : ConvEnv) (desc : QName) (b : CxxGenericType) :
    ∀ l : List Ty, confirmPayload env desc b l ≠ .outOfFuel
  | [] => by simp [confirmPayload]
  | t :: r => by
    have ih := confirmPayload_fuel env desc b r
    rw [confirmPayload.eq_def]
    split
    · simp
    · rename_i h
      cases h
      split
      · simp
      · split
        · simp
        · split
          · split
            · simp
            · split
              · simp
              · split <;> simp
          · split
            · simp
            · exact ih
          · split
            · simp
            · split
              · simp
              · exact ih
          · exact ih
    · simp

theorem templated_fuel (names : CppNameMap) (st : Concretes) (rs : Ty) :
    (templatedTypename names st rs).2 ≠ .outOfFuel := by
  rw [templatedTypename]
  split
  · simp
  · simp
  · split
    · simp
    · dsimp only
      split <;> simp

theorem qualifyPath_cases {env : ConvEnv} {ns segs : List String} :
    qualifyPath env ns segs ≠ .outOfFuel ∧
    ∀ segs', qualifyPath env ns segs = .ok segs' → segs' = segs ∨ segs' = "output" :: ns ++ segs := by
  rw [qualifyPath.eq_def]
  split
  · simp
  · split
    · simp
    · split
      · simp
      · split
        · simp
        · split
          · simp
          · split
            · simp
            · simp

theorem checkTypeName_fuel (env : ConvEnv) (q : QName) : checkTypeName env q ≠ .outOfFuel := by
  rw [checkTypeName]
  split
  · simp
  · simp
  · split <;> simp

theorem resolvePath_fuel (env : ConvEnv) (segs : List String) (args : List Ty) (q : QName) :
    resolvePath env segs args q ≠ .outOfFuel := by
  rw [resolvePath]
  have h := resolve_terminates env.typedefs q
  cases hr : resolveTypedef env.typedefs q with
  | ok r =>
    rw [CRes.bind]
    split
    · simp
    · split <;> simp
    · simp
    · simp
  | err e => simp [CRes.bind]
  | panic => simp [CRes.bind]
  | outOfFuel => exact absurd hr h

theorem finishPath_fuel (env : ConvEnv) (ctx : ConvCtx) (a : Annotated Ty) : finishPath env ctx a ≠ .outOfFuel := by
  rw [finishPath]
  split
  · split
    · simp
    · split
      · simp
      · split <;> simp
  · simp

theorem ensurePointee_fuel (t : Ty) : ensurePointee t ≠ .outOfFuel := by
  cases t <;> simp [ensurePointee]

theorem thenDo_not_fuel {α β : Type} {r : Concretes × CRes α} {f : Concretes → α → Concretes × CRes β}
    (h : r.2 ≠ .outOfFuel) (hf : ∀ s a, r = (s, .ok a) → (f s a).2 ≠ .outOfFuel) :
    (thenDo r f).2 ≠ .outOfFuel := by
  obtain ⟨s, r⟩ := r
  cases r with
  | ok a => exact hf s a rfl
  | err e => simp [thenDo]
  | panic => simp [thenDo]
  | outOfFuel => exact absurd rfl h

theorem convertArgs_not_fuel {f : Concretes → Ty → Concretes × CRes (Annotated Ty)} : ∀ (args : List Ty)
    (st : Concretes), (∀ t ∈ args, ∀ s, (f s t).2 ≠ .outOfFuel) → (convertArgs f st args).2 ≠ .outOfFuel
  | [], _, _ => by simp [convertArgs]
  | t :: r, st, h => by
    rw [convertArgs]
    refine thenDo_not_fuel (h t (.head _) st) fun s a _ => ?_
    refine thenDo_not_fuel (convertArgs_not_fuel r s fun t ht => h t (.tail _ ht)) fun s a _ => ?_
    simp

theorem convertPlainPath_not_fuel {f : Concretes → Ty → Concretes × CRes (Annotated Ty)} {env : ConvEnv}
    {ns : List String} {ctx : ConvCtx} {st : Concretes} {segs : List String} {args : List Ty}
    (h : ∀ q segs' s a tn deps, Prepared env ns segs args q segs' (.path s a tn deps) →
      ∀ t ∈ a, ∀ s, (f s t).2 ≠ .outOfFuel) :
    (convertPlainPath f env ns ctx st segs args).2 ≠ .outOfFuel := by
  rw [convertPlainPath]
  refine thenDo_not_fuel (qualifyPath_cases.1) fun s segs' hq => ?_
  split
  · simp
  · rename_i q hn
    refine thenDo_not_fuel (checkTypeName_fuel _ _) fun s u hc => ?_
    refine thenDo_not_fuel (resolvePath_fuel _ _ _ _) fun s r hr => ?_
    split
    · simp
    · rename_i s' a tn deps
      have hp : Prepared env ns segs args q segs' (.path s' a tn deps) :=
        ⟨(Prod.mk.inj hq).2, hn, (Prod.mk.inj hc).2, (Prod.mk.inj hr).2⟩
      have ha := h _ _ _ _ _ _ hp
      rw [convertGeneric.eq_def]
      split
      · simp
      · split
        · split
          · simp
          · split
            · simp
            · split
              · simp
              · exact thenDo_not_fuel (templated_fuel _ _ _) fun _ _ _ => by simp
        · refine thenDo_not_fuel (convertArgs_not_fuel _ _ ha) fun s inner _ => ?_
          have := confirmPayload_fuel env tn (cxxGenericBehavior tn) inner.ty
          split
          · simp
          · simp
          · simp
          · rename_i hb
            exact absurd hb this

theorem uniform_bound {env : ConvEnv} {ns : List String} : ∀ {l : List Ty},
    (∀ t ∈ l, ∃ n, ∀ ctx st, (convertType env ns n ctx st t).2 ≠ .outOfFuel) →
    ∃ n, ∀ t ∈ l, ∀ ctx st, (convertType env ns n ctx st t).2 ≠ .outOfFuel
  | [], _ => ⟨0, by simp⟩
  | t :: r, h => by
    obtain ⟨n, hn⟩ := h t (.head _)
    obtain ⟨k, hk⟩ := uniform_bound fun t ht => h t (.tail _ ht)
    refine ⟨n + k, fun u hu ctx st => ?_⟩
    rcases List.mem_cons.1 hu with rfl | hu
    · rw [convert_fuel_mono _ _ _ _ _ _ _ (hn ctx st)]; exact hn ctx st
    · rw [Nat.add_comm, convert_fuel_mono _ _ _ _ _ _ _ (hk u hu ctx st)]; exact hk u hu ctx st

theorem unwrapMarker_mem {m : String} {segs : List String} {args : List Ty} {t : Ty}
    (h : unwrapMarker m segs args = some t) : t ∈ args := by
  rw [unwrapMarker] at h
  split at h
  · exact List.mem_of_mem_head? h
  · cases h

theorem unwrapReference_mem {segs : List String} {args : List Ty} {rv mu : Bool} {e : Ty}
    (h : unwrapReference segs args rv = some (mu, e)) : Ty.ptr mu e ∈ args := by
  rw [unwrapReference] at h
  split at h
  · rename_i hm
    cases h
    exact unwrapMarker_mem hm
  · cases h

theorem terminates_aux {env : ConvEnv} {ns : List String} {pos : QName → Nat}
    (hpos : ∀ q t x, AMap.get? env.typedefs q = some t → Mentions ns t x → pos x < pos q) :
    ∀ (R : Nat) (ty : Ty), (∀ q, Mentions ns ty q → pos q < R) →
    ∃ n, ∀ ctx st, (convertType env ns n ctx st ty).2 ≠ .outOfFuel
  | R, .path segs args, h => by
    have hargs : ∀ t ∈ args, ∃ n, ∀ ctx st, (convertType env ns n ctx st t).2 ≠ .outOfFuel := fun t ht =>
      have : sizeOf t < sizeOf args := List.sizeOf_lt_of_mem ht
      terminates_aux hpos R t fun q hq => h q (.arg ht hq)
    have hptr : ∀ mu e, Ty.ptr mu e ∈ args → ∃ n, ∀ ctx st, (convertType env ns n ctx st e).2 ≠ .outOfFuel :=
      fun mu e he =>
        have : sizeOf e < sizeOf args := by
          have := List.sizeOf_lt_of_mem he
          simp only [Ty.ptr.sizeOf_spec] at this
          omega
        terminates_aux hpos R e fun q hq => h q (.arg he (.ptr hq))
    -- the arguments of what a typedef leads to
    have hres : ∀ q segs' s a tn deps, Prepared env ns segs args q segs' (.path s a tn deps) →
        a ≠ args → ∀ t ∈ a, ∃ n, ∀ ctx st, (convertType env ns n ctx st t).2 ≠ .outOfFuel := by
      intro q segs' s a tn deps hp hne t ht
      rcases prepared_inv hp with ⟨_, e⟩ | ⟨s', a', tn', he, htn, e⟩ | ⟨_, _, _, e⟩ | ⟨_, _, _, _, e⟩
      · cases e; exact absurd rfl hne
      · cases e
        obtain ⟨x, hx, hg⟩ := endsAt_target he rfl
        have hq : pos q < R := h q (.self (by
          rcases qualifyPath_cases.2 _ hp.qualified with e | e
          · exact .inl (e ▸ hp.name)
          · exact .inr (e ▸ hp.name)))
        have hle : pos x ≤ pos q := by
          clear hg
          induction hx with
          | refl => exact Nat.le_refl _
          | tail h1 h2 ih =>
            obtain ⟨⟨s, a, h3, h4⟩, _⟩ := h2
            exact Nat.le_trans (Nat.le_of_lt (hpos _ _ _ h3 (.self (.inl h4)))) ih
        have : pos x < R := Nat.lt_of_le_of_lt hle hq
        exact terminates_aux hpos (pos x) t fun y hy => hpos x _ y hg (.arg ht hy)
      · cases e
      · cases e
    obtain ⟨n1, h1⟩ := uniform_bound hargs
    -- the arguments of the typedef's target, if there is one, are determined by the path
    have hone : ∃ n, ∀ q segs' s a tn deps, Prepared env ns segs args q segs' (.path s a tn deps) →
        ∀ t ∈ a, ∀ ctx st, (convertType env ns n ctx st t).2 ≠ .outOfFuel := by
      by_cases hex : ∃ q segs' s a tn deps, Prepared env ns segs args q segs' (.path s a tn deps) ∧ a ≠ args
      · obtain ⟨q, segs', s, a, tn, deps, hp, hne⟩ := hex
        obtain ⟨n, hn⟩ := uniform_bound (hres _ _ _ _ _ _ hp hne)
        refine ⟨n, fun q2 segs2 s2 a2 tn2 deps2 hp2 => ?_⟩
        have e1 := hp.qualified.symm.trans hp2.qualified
        cases e1
        have e2 := hp.name.symm.trans hp2.name
        cases e2
        have e3 := hp.resolved.symm.trans hp2.resolved
        cases e3
        exact hn
      · refine ⟨n1, fun q2 segs2 s2 a2 tn2 deps2 hp2 => ?_⟩
        have : a2 = args := Classical.byContradiction fun hne => hex ⟨_, _, _, _, _, _, hp2, hne⟩
        rw [this]
        exact h1
    obtain ⟨n2, h2⟩ := hone
    have hp2 : ∃ n, ∀ mu e, Ty.ptr mu e ∈ args → ∀ ctx st, (convertType env ns n ctx st e).2 ≠ .outOfFuel := by
      obtain ⟨n, hn⟩ := uniform_bound (l := args.filterMap fun t => match t with
        | .ptr _ e => some e
        | _ => none) (env := env) (ns := ns) (by
          intro t ht
          obtain ⟨u, hu, hut⟩ := List.mem_filterMap.1 ht
          split at hut
          · cases hut; exact hptr _ _ hu
          · cases hut)
      exact ⟨n, fun mu e he => hn e (List.mem_filterMap.2 ⟨_, he, rfl⟩)⟩
    obtain ⟨n3, h3⟩ := hp2
    have up1 : ∀ t ∈ args, ∀ ctx st, (convertType env ns (n1 + n2 + n3) ctx st t).2 ≠ .outOfFuel := by
      intro t ht ctx st
      rw [Nat.add_assoc, convert_fuel_mono _ _ _ _ _ _ _ (h1 t ht ctx st)]
      exact h1 t ht ctx st
    have up2 : ∀ t ctx st, (convertType env ns n2 ctx st t).2 ≠ .outOfFuel →
        (convertType env ns (n1 + n2 + n3) ctx st t).2 ≠ .outOfFuel := by
      intro t ctx st ht
      rw [show n1 + n2 + n3 = n2 + (n1 + n3) by omega, convert_fuel_mono _ _ _ _ _ _ _ ht]
      exact ht
    have up3 : ∀ t ctx st, (convertType env ns n3 ctx st t).2 ≠ .outOfFuel →
        (convertType env ns (n1 + n2 + n3) ctx st t).2 ≠ .outOfFuel := by
      intro t ctx st ht
      rw [show n1 + n2 + n3 = n3 + (n1 + n2) by omega, convert_fuel_mono _ _ _ _ _ _ _ ht]
      exact ht
    refine ⟨n1 + n2 + n3 + 1, fun ctx st => ?_⟩
    rw [convertType]
    split
    · rename_i hm
      exact up1 _ (unwrapMarker_mem hm) _ _
    · split
      · rename_i hm
        exact up1 _ (unwrapMarker_mem hm) _ _
      · split
        · rename_i hm
          exact thenDo_not_fuel (up3 _ _ _ (h3 _ _ (unwrapReference_mem hm) _ _)) fun _ _ _ => by simp
        · split
          · rename_i hm
            refine thenDo_not_fuel (ensurePointee_fuel _) fun s _ _ => ?_
            exact thenDo_not_fuel (up3 _ _ _ (h3 _ _ (unwrapReference_mem hm) _ _)) fun _ _ _ => by simp
          · refine thenDo_not_fuel (convertPlainPath_not_fuel ?_) fun s a _ => finishPath_fuel _ _ _
            exact fun q segs' s a tn deps hp t ht st => up2 _ _ _ (h2 _ _ _ _ _ _ hp t ht _ _)
  | R, .ref mu lt e, h => by
    obtain ⟨n, hn⟩ := terminates_aux hpos R e fun q hq => h q (.ref hq)
    exact ⟨n + 1, fun ctx st => by
      rw [convertType]; exact thenDo_not_fuel (hn _ _) fun _ _ _ => by simp⟩
  | R, .ptr mu e, h => by
    obtain ⟨n, hn⟩ := terminates_aux hpos R e fun q hq => h q (.ptr hq)
    exact ⟨n + 1, fun ctx st => by
      rw [convertType]
      refine thenDo_not_fuel (ensurePointee_fuel _) fun s _ _ => ?_
      exact thenDo_not_fuel (hn _ _) fun _ _ _ => by simp⟩
  | R, .array e k, h => by
    obtain ⟨n, hn⟩ := terminates_aux hpos R e fun q hq => h q (.array hq)
    exact ⟨n + 1, fun ctx st => by
      rw [convertType]; exact thenDo_not_fuel (hn _ _) fun _ _ _ => by simp⟩
  | _, .other s, _ => ⟨1, fun ctx st => by simp [convertType]⟩
termination_by R ty => (R, sizeOf ty)

theorem list_bound {α : Type} {P : α → Nat → Prop} (mono : ∀ a n k, P a n → P a (n + k)) :
    ∀ {l : List α}, (∀ a ∈ l, ∃ n, P a n) → ∃ n, ∀ a ∈ l, P a n
  | [], _ => ⟨0, by simp⟩
  | a :: r, h => by
    obtain ⟨n, hn⟩ := h a (.head _)
    obtain ⟨k, hk⟩ := list_bound mono fun t ht => h t (.tail _ ht)
    refine ⟨n + k, fun u hu => ?_⟩
    rcases List.mem_cons.1 hu with rfl | hu
    · exact mono _ _ _ hn
    · exact Nat.add_comm k n ▸ mono _ _ n (hk u hu)

/-- A type mentions finitely many names. -/
theorem mentions_bound (ns : List String) (pos : QName → Nat) : ∀ ty : Ty, ∃ R, ∀ q, Mentions ns ty q → pos q < R
  | .path segs args => by
    have hargs : ∀ t ∈ args, ∃ R, ∀ q, Mentions ns t q → pos q < R := fun t ht =>
      have : sizeOf t < sizeOf args := List.sizeOf_lt_of_mem ht
      mentions_bound ns pos t
    obtain ⟨R, hR⟩ := list_bound (P := fun t R => ∀ q, Mentions ns t q → pos q < R)
      (fun a n k h q hq => Nat.lt_of_lt_of_le (h q hq) (Nat.le_add_right _ _)) hargs
    have hself : ∀ o : Option QName, ∃ R, ∀ q, o = some q → pos q < R := by
      intro o
      cases o with
      | none => exact ⟨0, by simp⟩
      | some q => exact ⟨pos q + 1, by rintro _ ⟨⟩; omega⟩
    obtain ⟨R1, h1⟩ := hself (QName.ofTypePath segs)
    obtain ⟨R2, h2⟩ := hself (QName.ofTypePath ("output" :: ns ++ segs))
    refine ⟨R + R1 + R2, fun q hq => ?_⟩
    cases hq with
    | self h =>
      rcases h with h | h
      · have := h1 q h; omega
      · have := h2 q h; omega
    | arg hm h => have := hR _ hm q h; omega
  | .ref mu lt e => by
    obtain ⟨R, h⟩ := mentions_bound ns pos e
    exact ⟨R, fun q hq => by cases hq; exact h q ‹_›⟩
  | .ptr mu e => by
    obtain ⟨R, h⟩ := mentions_bound ns pos e
    exact ⟨R, fun q hq => by cases hq; exact h q ‹_›⟩
  | .array e n => by
    obtain ⟨R, h⟩ := mentions_bound ns pos e
    exact ⟨R, fun q hq => by cases hq; exact h q ‹_›⟩
  | .other s => ⟨0, fun q hq => by cases hq⟩
termination_by ty => sizeOf ty

/-- **C57**: converting a type terminates if the typedefs are declared in order. -/
theorem convert_terminates_partial (env : ConvEnv) (ns : List String) (h : DeclaredInOrder env ns) (ty : Ty) :
    ∃ n, ∀ ctx st, (convertType env ns n ctx st ty).2 ≠ .outOfFuel := by
  obtain ⟨pos, hpos⟩ := h
  obtain ⟨R, hR⟩ := mentions_bound ns pos ty
  exact terminates_aux hpos R ty hR

/-- A typedef whose target holds the typedef itself, `typedef std::unique_ptr<A> A`. -/
def exSelfish : ConvEnv :=
  { typedefs := [(⟨[], "A"⟩, .path ["root", "std", "unique_ptr"] [.path ["root", "A"] []])] }

/-- **C57 is false** without the condition that typedefs are declared in order: then the converter
recurses for ever. -/
theorem convert_diverges_false (n : Nat) (ctx : ConvCtx) (st : Concretes) :
    (convertType exSelfish [] n ctx st (.path ["root", "A"] [])).2 = .outOfFuel := by
  induction n generalizing ctx st with
  | zero => rfl
  | succ n ih =>
    have h1 : qualifyPath exSelfish [] ["root", "A"] = .ok ["root", "A"] := by decide
    have h2 : QName.ofTypePath ["root", "A"] = some ⟨[], "A"⟩ := by decide
    have h3 : checkTypeName exSelfish ⟨[], "A"⟩ = .ok () := by decide_known
    have h4 : resolvePath exSelfish ["root", "A"] [] ⟨[], "A"⟩ =
        .ok (.path ["root", "std", "unique_ptr"] [.path ["root", "A"] []] ⟨["std"], "unique_ptr"⟩
          [⟨[], "A"⟩, ⟨["std"], "unique_ptr"⟩]) := by
      have : resolveTypedef exSelfish.typedefs ⟨[], "A"⟩ =
        .ok (some (.path ["root", "std", "unique_ptr"] [.path ["root", "A"] []])) := by decide +kernel
      rw [resolvePath, this]
      rfl
    have h5 : cxxGenericBehavior ⟨["std"], "unique_ptr"⟩ = .cppPtr := by decide_known
    have h6 := ih .withinContainer st
    rw [convertType]
    simp only [unwrapMarker, unwrapReference, List.cons.injEq, reduceCtorEq, and_false, if_false,
      convertPlainPath, thenDo, h1, h2, h3, h4, convertGeneric, h5, convertArgs]
    cases hc : convertType exSelfish [] n .withinContainer st (.path ["root", "A"] []) with
    | mk s r =>
      rw [hc] at h6
      cases h6
      rfl

/-- Typedefs declared in order: `typedef std::unique_ptr<Foo> A; typedef std::unique_ptr<A> B`. -/
example : DeclaredInOrder { typedefs :=
    [(⟨[], "A"⟩, .path ["root", "std", "unique_ptr"] [.path ["root", "Foo"] []]),
     (⟨[], "B"⟩, .path ["root", "std", "unique_ptr"] [.path ["root", "A"] []])] } [] := by
  refine ⟨fun q => if q = ⟨[], "B"⟩ then 2 else if q = ⟨[], "A"⟩ then 1 else 0, ?_⟩
  intro q t x hq hm
  simp only [AMap.get?] at hq
  split at hq
  · rename_i he
    cases hq
    cases hm with
    | self h => rcases h with h | h <;> (cases h; subst he; decide)
    | arg ht h =>
      rcases List.mem_cons.1 ht with rfl | ht
      · cases h with
        | self h => rcases h with h | h <;> (cases h; subst he; decide)
        | arg ht => cases ht
      · cases ht
  · split at hq
    · rename_i he
      cases hq
      cases hm with
      | self h => rcases h with h | h <;> (cases h; subst he; decide)
      | arg ht h =>
        rcases List.mem_cons.1 ht with rfl | ht
        · cases h with
          | self h => rcases h with h | h <;> (cases h; subst he; decide)
          | arg ht => cases ht
        · cases ht
    · cases hq

/-! ### Dependencies -/

/-- A converted type uses a name: somewhere in it is a path with this name. -/
inductive UsesName : Ty → QName → Prop
  | self {segs : List String} {args : List Ty} {q : QName} (h : QName.ofTypePath segs = some q) :
      UsesName (.path segs args) q
  | arg {segs : List String} {args : List Ty} {t : Ty} {q : QName} (hm : t ∈ args) (h : UsesName t q) :
      UsesName (.path segs args) q
  | ref {mu : Bool} {lt : Option String} {e : Ty} {q : QName} (h : UsesName e q) : UsesName (.ref mu lt e) q
  | ptr {mu : Bool} {e : Ty} {q : QName} (h : UsesName e q) : UsesName (.ptr mu e) q
  | array {e : Ty} {n : String} {q : QName} (h : UsesName e q) : UsesName (.array e n) q

/-- A name is accounted for by a list of dependencies: it is built in, it is in the list, or it is part of
the target of a typedef to which one in the list leads (which is then a dependency of that typedef). -/
def AccountedFor (typedefs : AMap QName Ty) (deps : List QName) (q : QName) : Prop :=
  (∃ d, knownGet q = some d) ∨ q ∈ deps ∨
  ∃ d ∈ deps, ∃ x t, ReflTransGen (Hop typedefs) d x ∧ AMap.get? typedefs x = some t ∧ UsesName t q

theorem AccountedFor.mono {m : AMap QName Ty} {l l' : List QName} {q : QName} (h : AccountedFor m l q)
    (hs : l ⊆ l') : AccountedFor m l' q := by
  rcases h with h | h | ⟨d, hd, h⟩
  · exact .inl h
  · exact .inr (.inl (hs h))
  · exact .inr (.inr ⟨d, hs hd, h⟩)

theorem finishPath_ok {env : ConvEnv} {ctx : ConvCtx} {a b : Annotated Ty} (h : finishPath env ctx b = .ok a) :
    (a = b ∧ ∀ segs args, b.ty = .path segs args → ∃ q, QName.ofTypePath segs = some q ∧
      (ctx ≠ .withinReference → q ∉ env.forward) ∧ shouldDereferenceInCpp q = false) ∨
    (a = { b with ty := .ref false none (.path ["str"] []), kind := .reference } ∧
      ∃ segs args q, b.ty = .path segs args ∧ QName.ofTypePath segs = some q ∧ shouldDereferenceInCpp q = true) := by
  rw [finishPath] at h
  split at h
  · rename_i segs args hty
    split at h
    · cases h
    · rename_i q hq
      split at h
      · cases h
      · rename_i hf
        split at h
        · rename_i hd
          cases h
          exact .inr ⟨rfl, _, _, q, hty, hq, hd⟩
        · rename_i hd
          cases h
          refine .inl ⟨rfl, fun s x hs => ?_⟩
          rw [hty] at hs
          cases hs
          refine ⟨q, hq, fun hc hm => hf ⟨?_, hm⟩, by simpa using hd⟩
          cases ctx <;> simp_all [ConvCtx.allowsForward]
  · rename_i hne
    cases h
    exact .inl ⟨rfl, fun s x hs => absurd hs (hne s x)⟩

set_option maxRecDepth 10000 in
theorem substitute_table : ∀ n ∈ knownTypesLit.allNames,
    OptAll (fun d => OptAll (fun r => knownTypesLit.get r = some d) (QName.ofTypePath d.toTypePath))
      (knownTypesLit.get n) := by decide +kernel

/-- The substitute for a known type is known, with the same details. -/
theorem substitute_details {q : QName} {d : TypeDetails} (h : knownGet q = some d) :
    ∃ r, QName.ofTypePath d.toTypePath = some r ∧ knownGet r = some d := by
  refine known_forall (fun _ d => ∃ r, QName.ofTypePath d.toTypePath = some r ∧ knownGet r = some d) ?_ h
  intro n hn d hd
  have := substitute_table n hn
  rw [hd] at this
  simp only [OptAll] at this
  cases hr : QName.ofTypePath d.toTypePath with
  | none => rw [hr] at this; exact this.elim
  | some r =>
    rw [hr] at this
    exact ⟨r, rfl, (knownGet_eq_lit r).trans this⟩

theorem substitute_known {q : QName} {d : TypeDetails} (h : knownGet q = some d) :
    ∃ r d', QName.ofTypePath d.toTypePath = some r ∧ knownGet r = some d' :=
  have ⟨r, h1, h2⟩ := substitute_details h
  ⟨r, d, h1, h2⟩

theorem substitutePath_name {tn : QName} {s : List String} (hs : QName.ofTypePath s = some tn) {q : QName}
    (h : QName.ofTypePath (substitutePath tn s) = some q) : (∃ d, knownGet q = some d) ∨ q = tn := by
  rw [substitutePath.eq_def, considerSubstitution] at h
  cases hk : knownGet tn with
  | some d =>
    rw [hk] at h
    obtain ⟨r, d', h1, h2⟩ := substitute_known hk
    simp only [Option.map_some] at h
    rw [h1] at h
    cases h
    exact .inl ⟨d', h2⟩
  | none =>
    rw [hk] at h
    right
    cases s with
    | nil => cases hs
    | cons f r =>
      simp only [Option.map_none] at h
      by_cases hf : f = "root"
      · subst hf
        simp only [if_true] at h
        simp only [QName.ofTypePath, true_or, or_true, if_true] at h hs
        exact Option.some.inj (h.symm.trans hs)
      · rw [if_neg hf] at h
        exact Option.some.inj (h.symm.trans hs)

theorem toTypePath_name {n q : QName} (h : QName.ofTypePath n.toTypePath = some q) :
    (∃ d, knownGet q = some d) ∨ q = n := by
  rw [QName.toTypePath, considerSubstitution] at h
  cases hk : knownGet n with
  | some d =>
    rw [hk] at h
    obtain ⟨r, d', h1, h2⟩ := substitute_known hk
    simp only [Option.map_some] at h
    rw [h1] at h
    cases h
    exact .inl ⟨d', h2⟩
  | none =>
    rw [hk] at h
    right
    simp only [Option.map_none, QName.ofTypePath, or_true, if_true] at h
    have := fromSegs_list h
    have e : q.ns ++ [q.name] = n.ns ++ [n.name] := this
    have h1 := List.append_inj_left' e rfl
    have h2 := List.append_inj_right' e rfl
    cases q; cases n
    simp only [List.cons.injEq, and_true] at h1 h2
    subst h1; subst h2; rfl

theorem known_str : ∃ d, knownGet ⟨[], "str"⟩ = some d := by
  have : (knownGet ⟨[], "str"⟩).isSome = true := by decide_known
  exact Option.isSome_iff_exists.1 this

theorem known_pin : ∃ d, knownGet ⟨["core", "pin"], "Pin"⟩ = some d := by
  have : (knownGet ⟨["core", "pin"], "Pin"⟩).isSome = true := by decide_known
  exact Option.isSome_iff_exists.1 this

/-- The name as written and the name of the path arrived at are among the dependencies. -/
theorem prepared_path {env : ConvEnv} {ns segs : List String} {args : List Ty} {q : QName}
    {segs' s : List String} {a : List Ty} {tn : QName} {deps : List QName}
    (h : Prepared env ns segs args q segs' (.path s a tn deps)) :
    QName.ofTypePath s = some tn ∧ q ∈ deps ∧ tn ∈ deps := by
  rcases prepared_inv h with ⟨_, e⟩ | ⟨_, _, _, _, htn, e⟩ | ⟨_, _, _, e⟩ | ⟨_, _, _, _, e⟩
  · cases e; exact ⟨h.name, .head _, .head _⟩
  · cases e; exact ⟨htn, .head _, .tail _ (.head _)⟩
  · cases e
  · cases e

theorem argsOk_deps {env : ConvEnv} {R : Concretes → Ty → Concretes → Annotated Ty → Prop}
    (hR : ∀ st t st' a, R st t st' a → ∀ q, UsesName a.ty q → AccountedFor env.typedefs a.deps q)
    {st st' : Concretes} {l : List Ty} {b : Annotated (List Ty)} (h : ArgsOk R st l st' b) :
    ∀ t ∈ b.ty, ∀ q, UsesName t q → AccountedFor env.typedefs b.deps q := by
  induction h with
  | nil => simp
  | cons h hr ih =>
    intro t ht q hq
    rcases List.mem_cons.1 ht with rfl | ht
    · exact (hR _ _ _ _ h q hq).mono (List.subset_append_left _ _)
    · exact (ih t ht q hq).mono (List.subset_append_right _ _)

theorem accounted_str (m : AMap QName Ty) (deps : List QName) {q : QName}
    (h : UsesName (.ref false none (.path ["str"] [])) q) : AccountedFor m deps q := by
  cases h with
  | ref h =>
    cases h with
    | self h => cases h; exact .inl known_str
    | arg hm => cases hm

/-- **C56**: every type used by a converted type is built in, is one of the dependencies recorded with it,
or belongs to the target of a typedef which is. -/
theorem convert_deps_complete (env : ConvEnv) (ns : List String) (n : Nat) (ctx : ConvCtx)
    (st st' : Concretes) (ty : Ty) (a : Annotated Ty) (h : convertType env ns n ctx st ty = (st', .ok a))
    (q : QName) (hq : UsesName a.ty q) : AccountedFor env.typedefs a.deps q := by
  induction n generalizing ctx st st' ty a q with
  | zero => cases h
  | succ n ih =>
    cases convertType_ok h with
    | marker hm h' hr => exact ih _ _ _ _ _ hr _ hq
    | lvalue h' hr =>
      rename_i mu e b
      cases mu with
      | false =>
        cases hq with
        | ref hq => exact ih _ _ _ _ _ hr _ hq
      | true =>
        cases hq with
        | self h => cases h; exact .inl known_pin
        | arg hm hq =>
          rcases List.mem_cons.1 hm with rfl | hm
          · cases hq with
            | ref hq => exact ih _ _ _ _ _ hr _ hq
          · cases hm
    | rvalue h' hp hr => cases hq with | ptr hq => exact ih _ _ _ _ _ hr _ hq
    | ref hr => cases hq with | ref hq => exact ih _ _ _ _ _ hr _ hq
    | array hr => cases hq with | array hq => exact ih _ _ _ _ _ hr _ hq
    | ptr hp hr => cases hq with | ptr hq => exact ih _ _ _ _ _ hr _ hq
    | done hp =>
      rcases prepared_inv hp with ⟨_, e⟩ | ⟨_, _, _, _, _, e⟩ | ⟨mu, e', he, e⟩ | ⟨t, he, _, _, e⟩
      · cases e
      · cases e
      · cases e
        obtain ⟨x, h1, h2⟩ := endsAt_target he rfl
        exact .inr (.inr ⟨_, .head _, x, _, h1, h2, hq⟩)
      · cases e
        obtain ⟨x, h1, h2⟩ := endsAt_target he rfl
        exact .inr (.inr ⟨_, .head _, x, _, h1, h2, hq⟩)
    | plain hp hf =>
      obtain ⟨hn, _, hd⟩ := prepared_path hp
      rcases finishPath_ok hf with ⟨rfl, _⟩ | ⟨rfl, _⟩
      · cases hq with
        | self h =>
          rcases substitutePath_name hn h with h | rfl
          · exact .inl h
          · exact .inr (.inl hd)
        | arg hm => cases hm
      · exact accounted_str _ _ hq
    | concrete hp hb hi hqn hig ht hf =>
      rcases finishPath_ok hf with ⟨rfl, _⟩ | ⟨rfl, _⟩
      · cases hq with
        | self h =>
          rcases toTypePath_name h with h | rfl
          · exact .inl h
          · exact .inr (.inl (List.mem_append_right _ (.head _)))
        | arg hm => cases hm
      · exact accounted_str _ _ hq
    | container hp hb hargs hk hf =>
      obtain ⟨hn, _, hd⟩ := prepared_path hp
      rcases finishPath_ok hf with ⟨rfl, _⟩ | ⟨rfl, _⟩
      · cases hq with
        | self h =>
          rcases substitutePath_name hn h with h | rfl
          · exact .inl h
          · exact .inr (.inl (List.mem_append_left _ hd))
        | arg hm hq =>
          exact (argsOk_deps (fun st t st' a h q hq => ih _ _ _ _ _ h q hq) hargs _ hm q hq).mono
            (List.subset_append_right _ _)
      · exact accounted_str _ _ hq

end Verif
