import Verif.RsSigProps
import Verif.LifetimeProps

/-!
# C70: Rust functions offered to C++

Which signatures `extern_rust_function` accepts, which types it takes a function to depend on, and what becomes of
the function in a whole run.
-/

set_option autoImplicit false

namespace Verif

/-! ## The specification -/

/-- A path which can name the type `n`: the bare name, or the name within a module called `root` or `output`. -/
def NamesPath (segs : List String) (n : String) : Prop :=
  segs = [n] ∧ n ≠ "root" ∧ n ≠ "output" ∨ segs = ["root", n] ∨ segs = ["output", n]

/-- The types a signature may have, and the type each of them is about. -/
inductive Supported : RustTy → String → Prop
  /-- A type by value. -/
  | plain {n : String} (h : NamesPath [n] n) (hs : n ≠ "Self") : Supported (.path [n] .none) n
  /-- A shared reference. -/
  | shared {segs : List String} {n : String} (h : NamesPath segs n) (hs : n ≠ "Self") :
      Supported (.ref false (.path segs .none)) n
  /-- A pinned mutable reference. -/
  | pinned {segs : List String} {n : String} (h : NamesPath segs n) (hs : n ≠ "Self") :
      Supported (.path ["Pin"] (.angle [.ty (.ref true (.path segs .none))])) n
  /-- A box or a vector. -/
  | held {c : String} {segs : List String} {n : String} (hc : c = "Box" ∨ c = "Vec") (h : NamesPath segs n)
      (hs : n ≠ "Self") : Supported (.path [c] (.angle [.ty (.path segs .none)])) n

/-- Why a path cannot name a type. -/
inductive BadPath : List String → RustTyArgs → RustErr → Prop
  | generic {segs : List String} {args : RustTyArgs} (h : args ≠ .none) : BadPath segs args .unsupportedType
  | qualified {segs : List String} {a b : String} {r : List String} (h : segs = a :: b :: r)
      (hr : (a = "root" ∨ a = "output") → r ≠ []) : BadPath segs .none .namespacesNotSupported
  | self {segs : List String} (h : NamesPath segs "Self") : BadPath segs .none .explicitSelf

/-- Why a type is not accepted. -/
inductive Refused : RustTy → RustErr → Prop
  | mutable {t : RustTy} : Refused (.ref true t) .pinnedReferencesRequired
  | shared {segs : List String} {args : RustTyArgs} {e : RustErr} (h : BadPath segs args e) :
      Refused (.ref false (.path segs args)) e
  | sharedOther {t : RustTy} (h : ∀ segs args, t ≠ .path segs args) : Refused (.ref false t) .unsupportedType
  | qualified {segs : List String} {args : RustTyArgs} (h : segs.length ≠ 1) :
      Refused (.path segs args) .namespacesNotSupported
  | plain {id : String} {args : RustTyArgs} {e : RustErr} (ha : ∀ l, args ≠ .angle l) (h : BadPath [id] args e) :
      Refused (.path [id] args) e
  | pinned {segs : List String} {args : RustTyArgs} {e : RustErr} (h : BadPath segs args e) :
      Refused (.path ["Pin"] (.angle [.ty (.ref true (.path segs args))])) e
  | pinnedOther {l : List RustTyArg} (h : ∀ segs args, l ≠ [.ty (.ref true (.path segs args))]) :
      Refused (.path ["Pin"] (.angle l)) .unsupportedType
  | held {c : String} {segs : List String} {args : RustTyArgs} {e : RustErr} (hc : c = "Box" ∨ c = "Vec")
      (h : BadPath segs args e) : Refused (.path [c] (.angle [.ty (.path segs args)])) e
  | heldOther {c : String} {l : List RustTyArg} (hc : c = "Box" ∨ c = "Vec") (h : ∀ segs args, l ≠ [.ty (.path segs args)]) :
      Refused (.path [c] (.angle l)) .unsupportedType
  | container {c : String} {l : List RustTyArg} (h : c ≠ "Pin" ∧ c ≠ "Box" ∧ c ≠ "Vec") :
      Refused (.path [c] (.angle l)) .unsupportedType
  | other : Refused .other .unsupportedType

/-- A parameter, or the result, which is accepted and is about this type. -/
def RustInput.Accepted (i : RustInput) (n : String) : Prop := ∃ t, i = .typed t ∧ Supported t n

/-- A parameter, or the result, which is not accepted. -/
def RustInput.Rejected (i : RustInput) (e : RustErr) : Prop :=
  i = .receiver ∧ e = .requiresFullyQualifiedReceiver ∨ ∃ t, i = .typed t ∧ Refused t e

/-- What a signature consists of, in the order it is looked at: the result comes first. -/
def RustFnSig.parts (sig : RustFnSig) : List RustInput := (sig.output.map RustInput.typed).toList ++ sig.inputs

/-! ## Paths -/

theorem ofTypePath_plain {segs : List String} {n : String} :
    QName.ofTypePath segs = some ⟨[], n⟩ ↔ NamesPath segs n := by
  have one : ∀ l : List String, QName.fromSegs l = some ⟨[], n⟩ ↔ l = [n] := by
    intro l
    match l with
    | [] => simp [QName.fromSegs]
    | [a] => simp [QName.fromSegs]
    | a :: b :: r => simp [QName.fromSegs]
  unfold NamesPath
  cases segs with
  | nil => simp [QName.ofTypePath]
  | cons s r =>
    rw [QName.ofTypePath]
    split
    · rename_i h
      rw [one]
      rcases h with rfl | rfl
      · constructor
        · rintro rfl; exact .inr (.inl rfl)
        · rintro (⟨h, h1, h2⟩ | h | h)
          · cases h; exact absurd rfl h1
          · cases h; rfl
          · simp at h
      · constructor
        · rintro rfl; exact .inr (.inr rfl)
        · rintro (⟨h, h1, h2⟩ | h | h)
          · cases h; exact absurd rfl h2
          · simp at h
          · cases h; rfl
    · rename_i h
      rw [one]
      push Not at h
      constructor
      · intro e; cases e; exact .inl ⟨rfl, h⟩
      · rintro (⟨e, -⟩ | e | e)
        · exact e
        · cases e; exact absurd rfl h.1
        · cases e; exact absurd rfl h.2

theorem fromSegs_ns {a b : String} {r : List String} {q : QName} (h : QName.fromSegs (a :: b :: r) = some q) : q.ns ≠ [] := by
  rw [QName.fromSegs] at h
  obtain ⟨x, -, rfl⟩ := Option.map_eq_some_iff.1 h
  exact List.cons_ne_nil _ _

theorem fromSegs_some : ∀ {a : String} {r : List String}, ∃ q, QName.fromSegs (a :: r) = some q
  | a, [] => ⟨_, rfl⟩
  | a, b :: r => by
    obtain ⟨q, h⟩ := fromSegs_some (a := b) (r := r)
    exact ⟨_, by rw [QName.fromSegs, h]; rfl⟩

theorem ofTypePath_qualified {segs : List String} :
    (∃ q, QName.ofTypePath segs = some q ∧ q.ns ≠ []) ↔
      ∃ a b r, segs = a :: b :: r ∧ ((a = "root" ∨ a = "output") → r ≠ []) := by
  cases segs with
  | nil => simp [QName.ofTypePath]
  | cons s r =>
    rw [QName.ofTypePath]
    split
    · rename_i h
      constructor
      · rintro ⟨q, hq, hn⟩
        match r with
        | [] => cases hq
        | [b] => cases hq; exact absurd rfl hn
        | b :: c :: r => exact ⟨s, b, c :: r, rfl, fun _ => List.cons_ne_nil _ _⟩
      · rintro ⟨a, b, r', e, hr⟩
        cases e
        cases r' with
        | nil => exact absurd rfl (hr h)
        | cons c r' =>
          obtain ⟨q, hq⟩ := fromSegs_some (a := b) (r := c :: r')
          exact ⟨q, hq, fromSegs_ns hq⟩
    · rename_i h
      constructor
      · rintro ⟨q, hq, hn⟩
        match r with
        | [] => cases hq; exact absurd rfl hn
        | b :: r => exact ⟨s, b, r, rfl, fun h' => absurd h' h⟩
      · rintro ⟨a, b, r', e, hr⟩
        cases e
        obtain ⟨q, hq⟩ := fromSegs_some (a := s) (r := b :: r')
        exact ⟨q, hq, fromSegs_ns hq⟩

theorem path_ok_iff (segs : List String) (args : RustTyArgs) (deps d : List QName) :
    addPathToDeps segs args deps = some (.ok d) ↔
      args = .none ∧ ∃ n, NamesPath segs n ∧ n ≠ "Self" ∧ d = setInsert deps ⟨[], n⟩ := by
  cases args with
  | angle l => simp [addPathToDeps]
  | parens => simp [addPathToDeps]
  | none =>
    rw [addPathToDeps, Option.map_eq_some_iff]
    constructor
    · rintro ⟨q, hq, h⟩
      split at h
      · cases h
      · rename_i hn
        split at h
        · cases h
        · rename_i hs
          cases h
          obtain ⟨ns, n⟩ := q
          obtain rfl : ns = [] := by simpa using hn
          exact ⟨rfl, n, ofTypePath_plain.1 hq, hs, rfl⟩
    · rintro ⟨-, n, hn, hs, rfl⟩
      exact ⟨_, ofTypePath_plain.2 hn, by simp [hs]⟩

theorem path_error_iff (segs : List String) (args : RustTyArgs) (deps : List QName) (e : RustErr) :
    addPathToDeps segs args deps = some (.error e) ↔ BadPath segs args e := by
  cases args with
  | angle l =>
    simp only [addPathToDeps, Option.some.injEq, Except.error.injEq]
    exact ⟨fun h => h ▸ .generic (by simp), fun h => by cases h; rfl⟩
  | parens =>
    simp only [addPathToDeps, Option.some.injEq, Except.error.injEq]
    exact ⟨fun h => h ▸ .generic (by simp), fun h => by cases h; rfl⟩
  | none =>
    rw [addPathToDeps, Option.map_eq_some_iff]
    constructor
    · rintro ⟨q, hq, h⟩
      split at h
      · rename_i hn
        cases h
        obtain ⟨a, b, r, hs, hr⟩ := ofTypePath_qualified.1 ⟨q, hq, hn⟩
        exact .qualified hs hr
      · rename_i hn
        split at h
        · rename_i hs
          cases h
          obtain ⟨ns, n⟩ := q
          obtain rfl : ns = [] := by simpa using hn
          cases hs
          exact .self (ofTypePath_plain.1 hq)
        · cases h
    · intro h
      cases h with
      | generic h => exact absurd rfl h
      | qualified hs hr =>
        obtain ⟨q, hq, hn⟩ := ofTypePath_qualified.2 ⟨_, _, _, hs, hr⟩
        exact ⟨q, hq, by simp [hn]⟩
      | self h => exact ⟨_, ofTypePath_plain.2 h, by simp⟩

/-! ## Types -/

/-- **C70**: a type is accepted exactly if it is of a supported form, and then it is taken to be about that type. -/
theorem type_accepted_iff (deps d : List QName) (t : RustTy) :
    addTypeToDeps deps t = some (.ok d) ↔ ∃ n, Supported t n ∧ d = setInsert deps ⟨[], n⟩ := by
  constructor
  · intro h
    unfold addTypeToDeps at h
    split at h
    · cases h
    · obtain ⟨rfl, n, h1, h2, h3⟩ := (path_ok_iff ..).1 h
      exact ⟨n, .shared h1 h2, h3⟩
    · cases h
    · split at h
      · rename_i hid
        subst hid
        split at h
        · obtain ⟨rfl, n, h1, h2, h3⟩ := (path_ok_iff ..).1 h
          exact ⟨n, .pinned h1 h2, h3⟩
        · cases h
      · split at h
        · rename_i hid
          split at h
          · obtain ⟨rfl, n, h1, h2, h3⟩ := (path_ok_iff ..).1 h
            exact ⟨n, .held hid h1 h2, h3⟩
          · cases h
        · cases h
    · obtain ⟨rfl, n, h1, h2, h3⟩ := (path_ok_iff ..).1 h
      rcases id h1 with ⟨e, -⟩ | e | e
      · cases e; exact ⟨_, .plain h1 h2, h3⟩
      · cases e
      · cases e
    · cases h
    · cases h
  · rintro ⟨n, h, rfl⟩
    cases h with
    | plain h hs => exact (path_ok_iff ..).2 ⟨rfl, _, h, hs, rfl⟩
    | shared h hs => exact (path_ok_iff ..).2 ⟨rfl, _, h, hs, rfl⟩
    | pinned h hs =>
      rw [addTypeToDeps, if_pos rfl]
      exact (path_ok_iff ..).2 ⟨rfl, _, h, hs, rfl⟩
    | held hc h hs =>
      rw [addTypeToDeps, if_neg (by rcases hc with rfl | rfl <;> decide), if_pos hc]
      exact (path_ok_iff ..).2 ⟨rfl, _, h, hs, rfl⟩

/-- **C70**: a type is refused exactly if it is not of a supported form, for the reason given. -/
theorem type_refused_iff (deps : List QName) (t : RustTy) (e : RustErr) :
    addTypeToDeps deps t = some (.error e) ↔ Refused t e := by
  constructor
  · intro h
    unfold addTypeToDeps at h
    split at h
    · cases h; exact .mutable
    · exact .shared ((path_error_iff ..).1 h)
    · rename_i ht
      cases h
      exact .sharedOther fun segs args e => ht segs args e
    · split at h
      · rename_i hid
        subst hid
        split at h
        · exact .pinned ((path_error_iff ..).1 h)
        · rename_i hl
          cases h
          exact .pinnedOther fun segs args e => hl segs args e
      · rename_i hp
        split at h
        · rename_i hid
          split at h
          · exact .held hid ((path_error_iff ..).1 h)
          · rename_i hl
            cases h
            exact .heldOther hid fun segs args e => hl segs args e
        · rename_i hc
          cases h
          push Not at hc
          exact .container ⟨hp, hc⟩
    · rename_i ha
      exact .plain (fun l e => ha l e) ((path_error_iff ..).1 h)
    · rename_i h1 h2
      cases h
      refine .qualified fun hl => ?_
      obtain ⟨id, rfl⟩ := List.length_eq_one_iff.1 hl
      exact h2 id rfl
    · cases h; exact .other
  · intro h
    cases h with
    | «mutable» => rfl
    | shared h => exact (path_error_iff ..).2 h
    | @sharedOther t h =>
      cases t with
      | path segs args => exact absurd rfl (h segs args)
      | ref => rfl
      | other => rfl
    | @qualified segs args h =>
      match segs, h with
      | [], _ => cases args <;> rfl
      | [a], h => exact absurd rfl h
      | a :: b :: r, _ => cases args <;> rfl
    | @plain _ args _ ha h =>
      cases args with
      | angle l => exact absurd rfl (ha l)
      | none => exact (path_error_iff ..).2 h
      | parens => exact (path_error_iff _ _ deps _).2 h
    | pinned h =>
      rw [addTypeToDeps, if_pos rfl]
      exact (path_error_iff ..).2 h
    | pinnedOther h =>
      unfold addTypeToDeps
      dsimp only
      rw [if_pos rfl]
      split
      · exact absurd rfl (h _ _)
      · rfl
    | held hc h =>
      rw [addTypeToDeps, if_neg (by rcases hc with rfl | rfl <;> decide), if_pos hc]
      exact (path_error_iff ..).2 h
    | heldOther hc h =>
      unfold addTypeToDeps
      dsimp only
      rw [if_neg (by rcases hc with rfl | rfl <;> decide), if_pos hc]
      split
      · exact absurd rfl (h _ _)
      · rfl
    | container h =>
      unfold addTypeToDeps
      dsimp only
      rw [if_neg h.1, if_neg (by push Not; exact h.2)]
    | other => rfl

/-! ## Signatures -/

/-- The types a list of names stands for, each once. -/
def namedTypes (deps : List QName) (names : List String) : List QName := names.foldl (fun d n => setInsert d ⟨[], n⟩) deps

theorem mem_namedTypes {names : List String} {deps : List QName} {q : QName} :
    q ∈ namedTypes deps names ↔ q ∈ deps ∨ ∃ n ∈ names, q = ⟨[], n⟩ := by
  induction names generalizing deps with
  | nil => simp [namedTypes]
  | cons n l ih =>
    have : namedTypes deps (n :: l) = namedTypes (setInsert deps ⟨[], n⟩) l := rfl
    rw [this, ih, mem_setInsert']
    constructor
    · rintro ((h | rfl) | ⟨m, hm, rfl⟩)
      · exact .inl h
      · exact .inr ⟨n, List.mem_cons_self, rfl⟩
      · exact .inr ⟨m, .tail _ hm, rfl⟩
    · rintro (h | ⟨m, hm, rfl⟩)
      · exact .inl (.inl h)
      · rcases List.mem_cons.1 hm with rfl | hm
        · exact .inl (.inr rfl)
        · exact .inr ⟨m, hm, rfl⟩

theorem inputs_ok_iff (l : List RustInput) (deps d : List QName) :
    addInputsToDeps deps l = some (.ok d) ↔ ∃ names, All2 RustInput.Accepted l names ∧ d = namedTypes deps names := by
  induction l generalizing deps with
  | nil =>
    constructor
    · intro h; cases h; exact ⟨[], .nil, rfl⟩
    · rintro ⟨_, h, rfl⟩; cases h; rfl
  | cons i l ih =>
    cases i with
    | receiver =>
      constructor
      · intro h; cases h
      · rintro ⟨_, h, rfl⟩
        cases h with
        | cons h _ => obtain ⟨t, e, -⟩ := h; cases e
    | typed t =>
      rw [addInputsToDeps]
      constructor
      · intro h
        split at h
        · cases h
        · cases h
        · rename_i d' hd
          obtain ⟨n, hn, rfl⟩ := (type_accepted_iff ..).1 hd
          obtain ⟨names, hl, rfl⟩ := (ih _).1 h
          exact ⟨n :: names, .cons ⟨t, rfl, hn⟩ hl, rfl⟩
      · rintro ⟨_, h, rfl⟩
        cases h with
        | @cons _ n _ names h hl =>
          obtain ⟨t', e, hn⟩ := h
          cases e
          rw [(type_accepted_iff deps _ t).2 ⟨n, hn, rfl⟩]
          exact (ih _).2 ⟨names, hl, rfl⟩

theorem inputs_error_iff (l : List RustInput) (deps : List QName) (e : RustErr) :
    addInputsToDeps deps l = some (.error e) ↔
      ∃ pre i post, l = pre ++ i :: post ∧ (∀ j ∈ pre, ∃ n, j.Accepted n) ∧ i.Rejected e := by
  induction l generalizing deps with
  | nil => simp [addInputsToDeps]
  | cons i l ih =>
    cases i with
    | receiver =>
      constructor
      · intro h
        cases h
        exact ⟨[], .receiver, l, rfl, by simp, .inl ⟨rfl, rfl⟩⟩
      · rintro ⟨pre, i, post, he, hp, hr⟩
        cases pre with
        | nil =>
          cases he
          rcases hr with ⟨-, rfl⟩ | ⟨t, e', -⟩
          · rfl
          · cases e'
        | cons j pre =>
          cases he
          obtain ⟨n, t, e', -⟩ := hp _ List.mem_cons_self
          cases e'
    | typed t =>
      rw [addInputsToDeps]
      constructor
      · intro h
        split at h
        · cases h
        · rename_i e' he
          cases h
          exact ⟨[], _, l, rfl, by simp, .inr ⟨t, rfl, (type_refused_iff ..).1 he⟩⟩
        · rename_i d' hd
          obtain ⟨n, hn, rfl⟩ := (type_accepted_iff ..).1 hd
          obtain ⟨pre, i, post, rfl, hp, hr⟩ := (ih _).1 h
          refine ⟨.typed t :: pre, i, post, rfl, ?_, hr⟩
          intro j hj
          rcases List.mem_cons.1 hj with rfl | hj
          · exact ⟨n, t, rfl, hn⟩
          · exact hp j hj
      · rintro ⟨pre, i, post, he, hp, hr⟩
        cases pre with
        | nil =>
          cases he
          rcases hr with ⟨e', -⟩ | ⟨t', e', hr⟩
          · cases e'
          · cases e'
            rw [(type_refused_iff ..).2 hr]
        | cons j pre =>
          cases he
          obtain ⟨n, t', e', hn⟩ := hp _ List.mem_cons_self
          cases e'
          rw [(type_accepted_iff deps _ t).2 ⟨n, hn, rfl⟩]
          exact (ih _).2 ⟨pre, i, post, rfl, fun j hj => hp j (.tail _ hj), hr⟩

theorem assemble_parts (sig : RustFnSig) : assembleExternFunDeps sig = addInputsToDeps [] sig.parts := by
  unfold assembleExternFunDeps RustFnSig.parts
  cases sig.output with
  | none => rfl
  | some t => rfl

/-- **C70**: a signature is accepted exactly if each parameter and the result are; and then the function depends on
the types they are about and on no others. -/
theorem signature_accepted_iff (sig : RustFnSig) :
    ((∃ deps, assembleExternFunDeps sig = some (.ok deps)) ↔ ∀ i ∈ sig.parts, ∃ n, i.Accepted n) ∧
    ∀ deps, assembleExternFunDeps sig = some (.ok deps) →
      ∀ q, q ∈ deps ↔ ∃ i ∈ sig.parts, ∃ n, i.Accepted n ∧ q = ⟨[], n⟩ := by
  rw [assemble_parts]
  constructor
  · constructor
    · rintro ⟨deps, h⟩ i hi
      obtain ⟨names, hn, -⟩ := (inputs_ok_iff ..).1 h
      obtain ⟨n, -, h⟩ := hn.left hi
      exact ⟨n, h⟩
    · intro h
      have : ∀ l : List RustInput, (∀ i ∈ l, ∃ n, i.Accepted n) → ∃ names, All2 RustInput.Accepted l names := by
        intro l
        induction l with
        | nil => exact fun _ => ⟨[], .nil⟩
        | cons i l ih =>
          intro h
          obtain ⟨n, hn⟩ := h i List.mem_cons_self
          obtain ⟨names, hl⟩ := ih fun j hj => h j (.tail _ hj)
          exact ⟨n :: names, .cons hn hl⟩
      obtain ⟨names, hn⟩ := this _ h
      exact ⟨_, (inputs_ok_iff ..).2 ⟨names, hn, rfl⟩⟩
  · intro deps h q
    obtain ⟨names, hn, rfl⟩ := (inputs_ok_iff ..).1 h
    rw [mem_namedTypes]
    constructor
    · rintro (h | ⟨n, hm, rfl⟩)
      · cases h
      · obtain ⟨i, hi, ha⟩ := hn.right hm
        exact ⟨i, hi, n, ha, rfl⟩
    · rintro ⟨i, hi, n, ha, rfl⟩
      obtain ⟨m, hm, hb⟩ := hn.left hi
      obtain ⟨t, rfl, hs⟩ := ha
      obtain ⟨t', e, hs'⟩ := hb
      cases e
      have e1 := (type_accepted_iff [] _ t).2 ⟨n, hs, rfl⟩
      have e2 := (type_accepted_iff [] _ t).2 ⟨m, hs', rfl⟩
      rw [e1] at e2
      cases e2
      exact .inr ⟨n, hm, rfl⟩

/-- **C70**: a signature is refused exactly if something in it is, and the first such thing, the result coming before
the parameters, is reported. -/
theorem signature_refused_iff (sig : RustFnSig) (e : RustErr) :
    assembleExternFunDeps sig = some (.error e) ↔
      ∃ pre i post, sig.parts = pre ++ i :: post ∧ (∀ j ∈ pre, ∃ n, j.Accepted n) ∧ i.Rejected e := by
  rw [assemble_parts]
  exact inputs_error_iff ..

/-- `fn go(self: &Engine, into: Pin<&mut Sink>, all: Vec<Part>, n: u32) -> Box<Engine>` -/
example : assembleExternFunDeps ⟨[.typed (.ref false (.path ["Engine"] .none)),
      .typed (.path ["Pin"] (.angle [.ty (.ref true (.path ["Sink"] .none))])),
      .typed (.path ["Vec"] (.angle [.ty (.path ["Part"] .none)])), .typed (.path ["u32"] .none)],
      some (.path ["Box"] (.angle [.ty (.path ["Engine"] .none)]))⟩ =
    some (.ok [⟨[], "Engine"⟩, ⟨[], "Sink"⟩, ⟨[], "Part"⟩, ⟨[], "u32"⟩]) := by rfl

/-- `fn go(self: &a::Engine)` is refused, and so is `fn go(a: &mut A) -> Self`, for its result. -/
example : assembleExternFunDeps ⟨[.typed (.ref false (.path ["a", "Engine"] .none))], none⟩ =
      some (.error .namespacesNotSupported) ∧
    assembleExternFunDeps ⟨[.typed (.ref true (.path ["A"] .none))], some (.path ["Self"] .none)⟩ =
      some (.error .explicitSelf) := ⟨rfl, rfl⟩

/-! ## Whole runs -/

theorem configApis_funs {hash : Config → Nat} {sigOf : RustSig → RustFnSig} {cfg : Config} {l : List NullApi}
    (h : configApis hash sigOf cfg = some (.ok l)) :
    ∃ funs, rustFunApis sigOf cfg.externRustFuns = some (.ok funs) ∧ funs.Sublist l := by
  unfold configApis at h
  split at h
  · cases h
  · cases h
  · rename_i funs hf
    refine ⟨funs, hf, ?_⟩
    obtain ⟨types, -, h⟩ := Option.map_eq_some_iff.1 h
    cases h
    exact ((List.sublist_append_right ..).trans (List.sublist_append_left ..)).trans (List.sublist_append_left ..)

/-- The types a Rust function depends on. -/
def Api.nullDeps : NullApi → List QName
  | .rustFn _ ds => ds
  | _ => []

section
variable {fuel : Nat} {hash : Config → Nat} {sigOf : RustSig → RustFnSig} {policy : UnsafePolicy} {cfg : Config}
  {force : Bool} {cb : Callbacks} {items : List BindgenItem} {out : FnApiVec}
  (p : ConvertStages fuel hash sigOf policy cfg force cb items out)
include p

namespace ConvertStages

/-- A Rust function delivered has been collected. -/
theorem rustFn_collected {n : ApiName} {ds : List QName} (h : .rustFn n ds ∈ out.apis) : .rustFn n ds ∈ p.collected.apis := by
  rcases p.delivered_reachable h with ⟨_, _, e⟩ | ⟨z, hz, -, e, hr⟩
  · cases e
  · rcases e with rfl | e
    · exact (p.collected_iff _).2 ⟨hz, hr⟩
    · cases e

/-- **C70**: a Rust function delivered is the only one of its name which the user offers, its signature is accepted,
and it depends on the types which that is about. -/
theorem rustFn_from {n : ApiName} {ds : List QName} (h : .rustFn n ds ∈ out.apis) :
    ∃ f, (cfg.externRustFuns.filter fun g => g.sig.ident = f.sig.ident) = [f] ∧ n = ⟨⟨[], f.sig.ident⟩, none⟩ ∧
      assembleExternFunDeps (sigOf f.sig) = some (.ok ds) := by
  rcases p.delivered_directive h rfl with hc | ⟨_, _, _, _, -, -, -, e⟩
  · obtain ⟨f, hf, deps, hd, e⟩ : ∃ f ∈ cfg.externRustFuns, ∃ deps, assembleExternFunDeps (sigOf f.sig) = some (.ok deps) ∧
        (Api.rustFn n ds : NullApi) = .rustFn ⟨⟨[], f.sig.ident⟩, none⟩ deps := by
      rcases hc with ⟨-, e⟩ | ⟨_, -, e⟩ | ⟨f, hf, deps, hd, e⟩ | ⟨_, _, -, e⟩ | ⟨_, -, e⟩
      · cases e
      · cases e
      · exact ⟨f, hf, deps, hd, e⟩
      · cases e
      · cases e
    cases e
    refine ⟨f, ?_, rfl, hd⟩
    obtain ⟨a, ha, hs⟩ : ∃ a ∈ p.found.apis, a.shape = (Api.rustFn ⟨⟨[], f.sig.ident⟩, none⟩ ds : NullApi) := by
      rcases p.delivered_found h rfl rfl with ⟨_, _, e⟩ | e | e
      · cases e
      · cases e
      · exact e
    have ha' : a = .rustFn ⟨⟨[], f.sig.ident⟩, none⟩ ds := by
      cases a <;> cases hs
      rfl
    subst ha'
    obtain ⟨found, hfound, -, -⟩ := (parse_ok_iff ..).1 p.hparse
    rcases (parsed_real_iff _ _ _ _ _ _ _ p.hparse hfound _ rfl).1 ha with ⟨_, _, _, _, -, -, -, e⟩ | ⟨-, rest, hrest, hig⟩
    · cases e
    · obtain ⟨lc, root, outs, hlc, -, -, rfl⟩ := hfound
      obtain ⟨funs, hfuns, hsub⟩ := configApis_funs hlc
      have hall := (rustFunApis_iff ..).1 hfuns
      have hall' := filter_all2 (P := fun g : RustFun => decide (g.sig.ident = f.sig.ident))
        (Q := fun b : NullApi => decide (b.name = ⟨[], f.sig.ident⟩)) hall (by
          rintro g - b ⟨deps, -, rfl⟩
          show decide ((⟨[], g.sig.ident⟩ : QName) = ⟨[], f.sig.ident⟩) = decide (g.sig.ident = f.sig.ident)
          simp)
      have hsub' := ((hsub.trans (List.sublist_append_left lc (moduleApis [] outs))).filter
        fun b : NullApi => decide (b.name = ⟨[], f.sig.ident⟩)).filter fun b => !b.isIgnored
      have hreal : ((funs.filter fun b : NullApi => decide (b.name = ⟨[], f.sig.ident⟩)).filter fun b => !b.isIgnored) =
          funs.filter fun b : NullApi => decide (b.name = ⟨[], f.sig.ident⟩) := by
        rw [List.filter_eq_self]
        intro b hb
        obtain ⟨g, -, deps, -, rfl⟩ := hall.right (List.mem_filter.1 hb).1
        rfl
      rw [hreal] at hsub'
      have hone : (((lc ++ moduleApis [] outs).filter fun b : NullApi => decide (b.name = ⟨[], f.sig.ident⟩)).filter
          fun b => !b.isIgnored).length = 1 := by
        have e : ((lc ++ moduleApis [] outs).filter fun b : NullApi => decide (b.name = ⟨[], f.sig.ident⟩)) =
            .rustFn ⟨⟨[], f.sig.ident⟩, none⟩ ds :: rest := hrest
        rw [e, List.filter_cons]
        have : rest.filter (fun b => !b.isIgnored) = [] := by
          rw [List.filter_eq_nil_iff]
          intro b hb
          rw [hig b hb]
          simp
        rw [this]
        rfl
      have hlen := hsub'.length_le
      rw [hone, hall'] at hlen
      have hmem : f ∈ cfg.externRustFuns.filter fun g => decide (g.sig.ident = f.sig.ident) :=
        List.mem_filter.2 ⟨hf, by simp⟩
      generalize (cfg.externRustFuns.filter fun g => decide (g.sig.ident = f.sig.ident)) = m at hlen hmem
      match m, hlen, hmem with
      | [x], _, hm => rw [List.mem_singleton.1 hm]
      | x :: y :: m, hlen, _ => simp at hlen
  · cases e

/-- **C70 (partial)**: a Rust function offered to C++ is delivered, or something of its name says that it was given up
or shares its name; unless the name is that of a type which is built in, or an item invented on the way took it. -/
theorem rustFn_delivered_partial {f : RustFun} (hf : f ∈ cfg.externRustFuns) (hk : isKnownType ⟨[], f.sig.ident⟩ = false)
    (h1 : ∀ y ∈ p.allocs.apis, y.name = ⟨[], f.sig.ident⟩ → y.invented = false)
    (h2 : ∀ y ∈ p.fns.apis, y.name = ⟨[], f.sig.ident⟩ → y.invented = false) :
    ∃ a ∈ p.found.apis, a.name = ⟨[], f.sig.ident⟩ ∧
      ((∃ ds, a = .rustFn ⟨⟨[], f.sig.ident⟩, none⟩ ds) ∨ a.isIgnored = true ∨ ExternIs cfg ⟨[], f.sig.ident⟩ a) ∧
      ((NullApi.listedAs a = a.name ∨ a.isIgnored = false) → ∃ b ∈ out.apis, Follows a b) := by
  obtain ⟨found, hfound, -, -⟩ := (parse_ok_iff ..).1 p.hparse
  obtain ⟨d, hd, hdn⟩ : ∃ d ∈ found, d = (.rustFn ⟨⟨[], f.sig.ident⟩, none⟩ d.nullDeps : NullApi) := by
    obtain ⟨lc, root, outs, hlc, -, -, rfl⟩ := id hfound
    obtain ⟨funs, hfuns, hsub⟩ := configApis_funs hlc
    obtain ⟨d, hd, deps, -, e⟩ := ((rustFunApis_iff ..).1 hfuns).left hf
    exact ⟨d, List.mem_append_left _ (hsub.subset hd), by rw [e]; rfl⟩
  have hname : d.name = ⟨[], f.sig.ident⟩ := by rw [hdn]; rfl
  obtain ⟨a, ha, han⟩ := List.mem_map.1 (((parsed_names _ _ _ _ _ _ _ p.hparse hfound).2 _).2 (.inl ⟨d, hd, hname⟩))
  have hkind : (∃ ds, a = .rustFn ⟨⟨[], f.sig.ident⟩, none⟩ ds) ∨ a.isIgnored = true ∨ ExternIs cfg ⟨[], f.sig.ident⟩ a := by
    cases hig : a.isIgnored with
    | true => exact .inr (.inl rfl)
    | false =>
      rcases (parsed_real_iff _ _ _ _ _ _ _ p.hparse hfound a hig).1 ha with h | ⟨-, rest, hrest, hr⟩
      · exact .inr (.inr (han ▸ h))
      · have hm : d ∈ found.filter fun b => decide (b.name = a.name) := List.mem_filter.2 ⟨hd, by simp [hname, han]⟩
        have hm' : d ∈ a :: rest := by rw [← hrest]; exact hm
        rcases List.mem_cons.1 hm' with rfl | hm'
        · exact .inl ⟨_, hdn⟩
        · have := hr d hm'
          rw [hdn] at this
          cases this
  refine ⟨a, ha, han, hkind, fun hl => ?_⟩
  have hon : cfg.isOnAllowlist hash (QName.toCppName ⟨[], f.sig.ident⟩) = some true := by
    rw [toCppName_plain hk]
    exact (on_allowlist_iff ..).2 (.inl (.rustFun f hf rfl))
  have hl' : NullApi.listedAs a = a.name := by
    rcases hl with hl | hl
    · exact hl
    · rcases hkind with ⟨ds, rfl⟩ | h | ⟨_, _, _, _, -, -, -, rfl⟩
      · rfl
      · rw [hl] at h; cases h
      · rfl
  refine p.item_delivered ha ?_ (fun y hy hn => h1 y hy (hn.trans han)) (fun y hy hn => h2 y hy (hn.trans han))
    (by rw [han]; exact hon) (by rw [hl', han]; exact hon)
  rcases hkind with ⟨ds, rfl⟩ | h | ⟨_, _, _, _, -, -, -, rfl⟩
  · rfl
  · cases a <;> first | rfl | cases h
  · rfl

variable {policy' : UnsafePolicy} {includes : List String} {headerName : Option String} {file : RsFile}
  (hfile : generateRsCode hash policy' cfg includes headerName out.apis = some file)
include hfile

/-- **C70**: each type which the signature of a Rust function in the bridge is about is built in, or is declared in the
bridge, unless what the function calls a type is no type or is a template. -/
theorem rustFn_types_declared {sig : RustSig} (h : .rustFn sig ∈ file.externRust) :
    (∀ i ∈ (sigOf sig).parts, ∃ n, i.Accepted n) ∧
    ∀ i ∈ (sigOf sig).parts, ∀ n, i.Accepted n → NameFrom cfg out.apis [] [] file ⟨[], n⟩ := by
  obtain ⟨codes, P⟩ := rs_parts hfile
  obtain ⟨a, ha, c, hc, hdc⟩ := (P.mem_externRust _).1 h
  have hcode := item_code hc
  obtain ⟨n, ds, f, rfl, hf, hn, rfl⟩ : ∃ n ds, ∃ f : RustFun, a = .rustFn n ds ∧ f ∈ cfg.externRustFuns ∧
      f.sig.ident = n.name.name ∧ f.sig = sig := by
    cases hcode with
    | @type _ _ _ _ traits _ ht hs hk => cases hk <;> cases hdc
    | makeString _ e | ctype _ _ e | externCpp _ _ _ _ e | fn _ _ _ _ e => cases hdc
    | bindgen e | nothing e => cases hdc
    | failed _ _ ctx e => cases ctx <;> cases hdc
    | rustType n s p e hp hl =>
      rw [List.mem_singleton] at hdc
      cases hdc
    | rustFn n s r e hr hn =>
      rw [List.mem_singleton] at hdc
      cases hdc
      exact ⟨n, s, r, e, hr, hn, rfl⟩
    | subclassFn n sub dd c e hg =>
      obtain ⟨params, ret, hp, hret, rfl⟩ := subclassFn_code hg
      rw [List.mem_singleton] at hdc
      cases hdc
    | subclass n sup c e hg =>
      obtain ⟨supers, hs, -, -, hgl, hr, -, -, hit⟩ := subclass_code hg
      rw [hr] at hdc
      simp at hdc
  obtain ⟨g, hg, hnn, hdeps⟩ := p.rustFn_from ha
  subst hnn
  have hfg : f = g := by
    have : f ∈ cfg.externRustFuns.filter fun x => decide (x.sig.ident = g.sig.ident) :=
      List.mem_filter.2 ⟨hf, by simpa using hn⟩
    rw [hg] at this
    exact List.mem_singleton.1 this
  subst hfg
  obtain ⟨h1, h2⟩ := signature_accepted_iff (sigOf f.sig)
  refine ⟨h1.1 ⟨_, hdeps⟩, fun i hi n hn => ?_⟩
  exact p.item_dep_from hfile (p.rustFn_collected ha) rfl (q := ⟨[], n⟩) ((h2 _ hdeps _).2 ⟨i, hi, n, hn, rfl⟩) _ _

end ConvertStages
end

end Verif
