import Verif.ValueParam
import Verif.Util
import Mathlib.Data.List.Nodup

/-!
# A value handed over to C++ is destroyed exactly once (C31)
-/

set_option autoImplicit false

namespace Verif

/-! ## Specification -/

/-- How often an event has happened. -/
def ObjWorld.times (w : ObjWorld) (e : ObjEvent) : Nat := w.events.count e

/-- The objects which an argument owns, and which are therefore to be destroyed when it is handed over. A reference owns nothing. -/
def SlotType.owned : (t : SlotType) → t.Val → List Nat
  | .value .ref, _ => []
  | .value .uniquePtr, p => Option.toList (α := Nat) p
  | .value .pinBox, o => [o]
  | .value .refUniquePtr, _ => []
  | .value .refPinBox, _ => []
  | .value .byNew, c => NewCtor.holds c
  | .rvalue .uniquePtr, p => Option.toList (α := Nat) p
  | .rvalue .pinBox, o => [o]
  | .rvalue .moveRef, o => [o]

/-- Handing the argument over runs a constructor, which panics. -/
def SlotType.ctorPanics : (t : SlotType) → t.Val → Bool
  | .value .ref, p => Lent.copyPanics p
  | .value .uniquePtr, _ => false
  | .value .pinBox, _ => false
  | .value .refUniquePtr, none => false
  | .value .refUniquePtr, some p => Lent.copyPanics p
  | .value .refPinBox, p => Lent.copyPanics p
  | .value .byNew, c => NewCtor.panics c
  | .rvalue _, _ => false

/-- The argument is a null pointer, or a reference to one. -/
def SlotType.isNull : (t : SlotType) → t.Val → Bool
  | .value .uniquePtr, p => Option.isNone (α := Nat) p
  | .value .refUniquePtr, p => Option.isNone (α := Lent) p
  | .rvalue .uniquePtr, p => Option.isNone (α := Nat) p
  | _, _ => false

/-- What C++ is to be given a pointer to: the object itself if the argument is an owning pointer, otherwise an object which is made, and gets the number `n`. -/
def SlotType.handsOver : (t : SlotType) → t.Val → Nat → Option Nat
  | .value .ref, _, n => some n
  | .value .uniquePtr, p, _ => p
  | .value .pinBox, o, _ => some o
  | .value .refUniquePtr, none, _ => none
  | .value .refUniquePtr, some _, n => some n
  | .value .refPinBox, _, n => some n
  | .value .byNew, _, n => some n
  | .rvalue .uniquePtr, p, _ => p
  | .rvalue .pinBox, o, _ => some o
  | .rvalue .moveRef, o, _ => some o

/-- How many objects are made to hand the argument over. -/
def SlotType.makes : (t : SlotType) → t.Val → Nat
  | .value .ref, p => if Lent.copyPanics p then 0 else 1
  | .value .uniquePtr, _ => 0
  | .value .pinBox, _ => 0
  | .value .refUniquePtr, none => 0
  | .value .refUniquePtr, some p => if Lent.copyPanics p then 0 else 1
  | .value .refPinBox, p => if Lent.copyPanics p then 0 else 1
  | .value .byNew, c => if NewCtor.panics c then 0 else 1
  | .rvalue _, _ => 0

/-! ## One operation -/

theorem ObjWorld.destroyAll_events (os : List Nat) (w : ObjWorld) :
    (w.destroyAll os).events = w.events ++ os.map ObjEvent.destroyed ∧ (w.destroyAll os).next = w.next := by
  induction os generalizing w with
  | nil => exact ⟨(List.append_nil _).symm, rfl⟩
  | cons o os ih =>
    have := ih (w.destroy o)
    refine ⟨?_, this.2⟩
    show ((w.destroy o).destroyAll os).events = _
    rw [this.1]
    simp [ObjWorld.destroy, ObjWorld.log]

/-- What is destroyed when a handler is dropped. -/
def Handler.last : {t : SlotType} → Handler t → List ObjEvent
  | .value .ref, .value h | .value .refUniquePtr, .value h | .value .refPinBox, .value h | .value .byNew, .value h =>
    match h.space with
    | none => []
    | some .uninit => [.destroyedUninit]
    | some (.init o) => [.destroyed o]
  | .value .uniquePtr, .value h =>
    match h.space with
    | some (some o) => [.destroyed o]
    | _ => []
  | .value .pinBox, .value h =>
    match h.space with
    | some o => [.destroyed o]
    | _ => []
  | .rvalue .uniquePtr, .rvalue h =>
    match h.space with
    | some (some o) => [.destroyed o]
    | _ => []
  | .rvalue .pinBox, .rvalue h | .rvalue .moveRef, .rvalue h =>
    match h.space with
    | some o => [.destroyed o]
    | _ => []

theorem Handler.drop_eq {t : SlotType} (h : Handler t) (w : ObjWorld) :
    h.drop w = ⟨w.next, w.events ++ h.last⟩ := by
  have hnil : w = ⟨w.next, w.events ++ []⟩ := by rw [List.append_nil]
  cases h with
  | @value t h =>
    obtain ⟨s⟩ := h
    cases t <;> rcases s with _ | s
    case ref.some | refUniquePtr.some | refPinBox.some | byNew.some => rcases s with _ | o <;> rfl
    case uniquePtr.some => rcases s with _ | o; exacts [hnil, rfl]
    case pinBox.some => rfl
    all_goals exact hnil
  | @rvalue t h =>
    obtain ⟨s⟩ := h
    cases t <;> rcases s with _ | s
    case uniquePtr.some => rcases s with _ | o; exacts [hnil, rfl]
    case pinBox.some | moveRef.some => rfl
    all_goals exact hnil

theorem ObjWorld.destroyAll_eq (os : List Nat) (w : ObjWorld) :
    w.destroyAll os = ⟨w.next, w.events ++ os.map ObjEvent.destroyed⟩ := by
  have := ObjWorld.destroyAll_events os w
  rw [← this.1, ← this.2]

theorem SlotType.dropVal_eq (t : SlotType) (v : t.Val) (w : ObjWorld) :
    t.dropVal v w = ⟨w.next, w.events ++ (t.owned v).map ObjEvent.destroyed⟩ := by
  have hnil : w = ⟨w.next, w.events ++ []⟩ := by rw [List.append_nil]
  rcases t with t | t <;> cases t
  case value.byNew => exact ObjWorld.destroyAll_eq _ w
  case value.uniquePtr | rvalue.uniquePtr => rcases v with _ | o; exacts [hnil, rfl]
  case value.pinBox | rvalue.pinBox | rvalue.moveRef => rfl
  all_goals exact hnil

/-- What a constructor which makes the argument drops while it runs. -/
def SlotType.consumed : (t : SlotType) → t.Val → List Nat
  | .value .byNew, c => NewCtor.holds c
  | _, _ => []

/-- Handing over the argument panics before there is a call: its constructor does, or it is a reference to a null pointer. -/
def SlotType.stops (t : SlotType) (v : t.Val) : Bool :=
  t.ctorPanics v || (decide (t = .value .refUniquePtr) && t.isNull v)

theorem Handler.populate_new (t : SlotType) (v : t.Val) (w : ObjWorld) :
    ∃ ok h, (Handler.new t).populate v w =
        (ok, h, ⟨w.next + t.makes v, w.events ++ (List.replicate (t.makes v) (ObjEvent.made w.next) ++ (t.consumed v).map ObjEvent.destroyed)⟩) ∧
      ok = !(t.stops v) ∧
      h.last = (if t.ctorPanics v then [ObjEvent.destroyedUninit] else (t.handsOver v w.next).toList.map ObjEvent.destroyed) ∧
      h.getPtr = (if t.ctorPanics v then none else t.handsOver v w.next) := by
  have hnil : w = ⟨w.next, w.events ++ []⟩ := by rw [List.append_nil]
  rcases t with t | t <;> cases t
  case value.ref | value.refPinBox =>
    obtain ⟨o, _ | _⟩ := v
    · exact ⟨_, _, rfl, rfl, rfl, rfl⟩
    · exact ⟨_, _, congrArg (fun x => (_, _, x)) hnil, rfl, rfl, rfl⟩
  case value.refUniquePtr =>
    rcases v with _ | ⟨o, _ | _⟩
    · exact ⟨_, _, congrArg (fun x => (_, _, x)) hnil, rfl, rfl, rfl⟩
    · exact ⟨_, _, rfl, rfl, rfl, rfl⟩
    · exact ⟨_, _, congrArg (fun x => (_, _, x)) hnil, rfl, rfl, rfl⟩
  case value.byNew =>
    obtain ⟨os, _ | _⟩ := v
    · refine ⟨_, _, congrArg (fun x => (_, _, x)) ((ObjWorld.destroyAll_eq os _).trans ?_), rfl, rfl, rfl⟩
      show _ = ObjWorld.mk (w.next + 1) (w.events ++ ([ObjEvent.made w.next] ++ os.map ObjEvent.destroyed))
      rw [← List.append_assoc]
      rfl
    · exact ⟨_, _, congrArg (fun x => (_, _, x)) (ObjWorld.destroyAll_eq os _), rfl, rfl, rfl⟩
  case value.uniquePtr | rvalue.uniquePtr =>
    rcases v with _ | o <;> exact ⟨_, _, congrArg (fun x => (_, _, x)) hnil, rfl, rfl, rfl⟩
  all_goals exact ⟨_, _, congrArg (fun x => (_, _, x)) hnil, rfl, rfl, rfl⟩

/-! ## A whole call -/

/-- The events of dropping what the argument leaves in its slot. -/
def SlotType.lastOf (t : SlotType) (v : t.Val) (n : Nat) : List ObjEvent :=
  if t.ctorPanics v then [ObjEvent.destroyedUninit] else (t.handsOver v n).toList.map ObjEvent.destroyed

theorem count_destroyed (os : List Nat) (o : Nat) : (os.map ObjEvent.destroyed).count (.destroyed o) = os.count o := by
  induction os with
  | nil => rfl
  | cons a os ih =>
    rw [List.map_cons, List.count_cons, List.count_cons, ih]
    by_cases h : a = o
    · subst h; simp
    · have : ¬ (ObjEvent.destroyed a = .destroyed o) := fun e => h (ObjEvent.destroyed.inj e)
      simp [h, this]

theorem count_made_replicate (k n o : Nat) :
    (List.replicate k (ObjEvent.made n)).count (.destroyed o) = 0 ∧ (List.replicate k (ObjEvent.made n)).count .destroyedUninit = 0 := by
  constructor <;> (rw [List.count_eq_zero]; intro h; cases (List.eq_of_mem_replicate h))

theorem count_destroyed_other (os : List Nat) (o : Nat) :
    (os.map ObjEvent.destroyed).count (.made o) = 0 ∧ (os.map ObjEvent.destroyed).count .destroyedUninit = 0 := by
  constructor <;> (rw [List.count_eq_zero]; intro h; obtain ⟨_, _, h⟩ := List.mem_map.mp h; cases h)

/-- The books of one argument: what its constructor drops, and what its slot does, are the objects it owns and the one which was made. -/
theorem arg_balance (t : SlotType) (v : t.Val) (n o : Nat) :
    ((t.consumed v).map ObjEvent.destroyed).count (.destroyed o) + (t.lastOf v n).count (.destroyed o) =
      (t.owned v).count o + (List.replicate (t.makes v) (ObjEvent.made n)).count (.made o) := by
  have hd : ∀ a : Nat, List.count (ObjEvent.destroyed o) [.destroyed a] = [a].count o := fun a => count_destroyed [a] o
  have hm : List.count (ObjEvent.made o) [.made n] = [n].count o := by
    by_cases h : n = o
    · subst h; simp
    · have : ¬ (ObjEvent.made n = .made o) := fun e => h (ObjEvent.made.inj e)
      simp [h, this]
  have hu : List.count (ObjEvent.destroyed o) [.destroyedUninit] = 0 := rfl
  have h0 : ∀ e : ObjEvent, List.count e [] = 0 := fun _ => rfl
  rcases t with t | t <;> cases t
  case value.ref | value.refPinBox =>
    obtain ⟨x, _ | _⟩ := v
    · exact (Nat.zero_add _).trans ((hd n).trans (hm.symm.trans (Nat.zero_add _).symm))
    · rfl
  case value.refUniquePtr =>
    rcases v with _ | ⟨x, _ | _⟩
    · rfl
    · exact (Nat.zero_add _).trans ((hd n).trans (hm.symm.trans (Nat.zero_add _).symm))
    · rfl
  case value.byNew =>
    obtain ⟨os, _ | _⟩ := v
    · show List.count (ObjEvent.destroyed o) (os.map _) + List.count (ObjEvent.destroyed o) [.destroyed n] =
        os.count o + List.count (ObjEvent.made o) [.made n]
      rw [count_destroyed, hd, hm]
    · show List.count (ObjEvent.destroyed o) (os.map _) + List.count (ObjEvent.destroyed o) [.destroyedUninit] =
        os.count o + List.count (ObjEvent.made o) []
      rw [count_destroyed, hu, h0]
  case value.uniquePtr | rvalue.uniquePtr =>
    rcases v with _ | x
    · rfl
    · exact (Nat.zero_add _).trans (hd x)
  all_goals exact (Nat.zero_add _).trans (hd v)

theorem last_made (t : SlotType) (v : t.Val) (n o : Nat) : (t.lastOf v n).count (.made o) = 0 := by
  unfold SlotType.lastOf
  split
  · rfl
  · exact (count_destroyed_other _ o).1

theorem last_uninit (t : SlotType) (v : t.Val) (n : Nat) :
    (t.lastOf v n).count .destroyedUninit = if t.ctorPanics v then 1 else 0 := by
  unfold SlotType.lastOf
  split
  · rfl
  · exact (count_destroyed_other _ 0).2

/-- The events of dropping handlers. -/
def lastAll (hs : List SomeHandler) : List ObjEvent := hs.flatMap fun h => h.handler.last

theorem dropHandlers_eq (hs : List SomeHandler) (w : ObjWorld) : dropHandlers hs w = ⟨w.next, w.events ++ lastAll hs⟩ := by
  induction hs generalizing w with
  | nil => show w = ⟨w.next, w.events ++ []⟩; rw [List.append_nil]
  | cons h hs ih =>
    show dropHandlers hs (h.handler.drop w) = _
    rw [ih, Handler.drop_eq]
    show ObjWorld.mk _ (w.events ++ h.handler.last ++ lastAll hs) = _
    rw [List.append_assoc]
    rfl

/-- The objects which arguments own. -/
def ownedAll (l : List SlotArg) : List Nat := l.flatMap fun a => a.type.owned a.val

theorem dropArgs_eq (l : List SlotArg) (w : ObjWorld) :
    dropArgs l w = ⟨w.next, w.events ++ (ownedAll l).map ObjEvent.destroyed⟩ := by
  induction l generalizing w with
  | nil => show w = ⟨w.next, w.events ++ []⟩; rw [List.append_nil]
  | cons a l ih =>
    show dropArgs l (a.type.dropVal a.val w) = _
    rw [ih, SlotType.dropVal_eq]
    show ObjWorld.mk _ (w.events ++ (a.type.owned a.val).map _ ++ (ownedAll l).map _) = ObjWorld.mk _ (w.events ++ (_ ++ ownedAll l).map _)
    rw [List.append_assoc, List.map_append]

/-- The first argument whose handing over panics before there is a call. -/
def firstStop (args : List SlotArg) : Option SlotArg := args.find? fun a => a.type.stops a.val

/-- The pointers C++ is to be given, if the next object to be made has the number `n`. -/
def pointersFor : List SlotArg → Nat → Option (List Nat)
  | [], _ => some []
  | a :: l, n => (a.type.handsOver a.val n).bind fun o => (pointersFor l (n + a.type.makes a.val)).map (o :: ·)

/-- What is known of a run over arguments. -/
structure PopulateSpec (args : List SlotArg) (hs : List SomeHandler) (w : ObjWorld) (ok : Bool) (rest : List SlotArg)
    (hs' : List SomeHandler) (w' : ObjWorld) : Prop where
  /-- it comes to an end unless an argument stops it -/
  ends : ok = (firstStop args).isNone
  /-- nothing is left if it does -/
  none_left : ok = true → rest = []
  /-- the books -/
  balance : ∀ o, w'.times (.destroyed o) + (lastAll hs').count (.destroyed o) + (ownedAll rest).count o + w.times (.made o) =
    w.times (.destroyed o) + (lastAll hs).count (.destroyed o) + (ownedAll args).count o + w'.times (.made o)
  /-- no destructor has run on memory which was not filled -/
  no_uninit : w'.times .destroyedUninit = w.times .destroyedUninit
  /-- one will, if the constructor panicked which stopped it -/
  uninit : (lastAll hs').count .destroyedUninit =
    (lastAll hs).count .destroyedUninit + (if (firstStop args).any (fun a => a.type.ctorPanics a.val) then 1 else 0)
  /-- dropping a handler makes nothing -/
  last_made : (∀ o, (lastAll hs).count (.made o) = 0) → ∀ o, (lastAll hs').count (.made o) = 0
  /-- the pointers -/
  pointers : ok = true → handlerPtrs hs'.reverse = (handlerPtrs hs.reverse).bind fun ps => (pointersFor args w.next).map (ps ++ ·)
  /-- what dropping the handlers will destroy is what the pointers point to -/
  lasts : ok = true → ∀ ps qs, handlerPtrs hs'.reverse = some qs → handlerPtrs hs.reverse = some ps → lastAll hs = ps.reverse.map .destroyed →
    lastAll hs' = qs.reverse.map .destroyed
  /-- what has happened is kept, and C++ is not called yet -/
  grows : ∃ l, w'.events = w.events ++ l ∧ ∀ e ∈ l, ∀ ps, e ≠ .called ps
  /-- each number is given to one object -/
  fresh : w.next ≤ w'.next ∧ ∀ o, w'.times (.made o) = w.times (.made o) + (if w.next ≤ o ∧ o < w'.next then 1 else 0)

theorem handlerPtrs_append (l m : List SomeHandler) :
    handlerPtrs (l ++ m) = (handlerPtrs l).bind fun ps => (handlerPtrs m).map (ps ++ ·) := by
  induction l with
  | nil => show handlerPtrs m = (handlerPtrs m).map fun x => x; simp
  | cons h l ih =>
    show (h.handler.getPtr.bind fun o => (handlerPtrs (l ++ m)).map (o :: ·)) = _
    rw [ih]
    show _ = (h.handler.getPtr.bind fun o => (handlerPtrs l).map (o :: ·)).bind _
    cases h.handler.getPtr with
    | none => rfl
    | some o =>
      cases handlerPtrs l with
      | none => rfl
      | some ps =>
        cases handlerPtrs m with
        | none => rfl
        | some qs => rfl

theorem ctorPanics_stops {t : SlotType} {v : t.Val} (h : t.ctorPanics v = true) : t.stops v = true := by
  unfold SlotType.stops
  rw [h]
  rfl

theorem makes_cases (t : SlotType) (v : t.Val) : t.makes v = 0 ∨ t.makes v = 1 := by
  rcases t with t | t <;> cases t
  case value.ref | value.refPinBox | value.byNew => obtain ⟨x, _ | _⟩ := v; exacts [Or.inr rfl, Or.inl rfl]
  case value.refUniquePtr => rcases v with _ | ⟨x, _ | _⟩; exacts [Or.inl rfl, Or.inr rfl, Or.inl rfl]
  all_goals exact Or.inl rfl

theorem populateAll_spec (args : List SlotArg) (hs : List SomeHandler) (w : ObjWorld) :
    ∃ ok rest hs' w', populateAll args hs w = (ok, rest, hs', w') ∧ PopulateSpec args hs w ok rest hs' w' := by
  induction args generalizing hs w with
  | nil =>
    refine ⟨_, _, _, _, rfl, rfl, fun _ => rfl, fun o => ?_, rfl, rfl, fun h => h, fun _ => ?_, fun _ ps qs h1 h2 h3 => ?_, ⟨[], (List.append_nil _).symm, nofun⟩, Nat.le_refl _, fun o => ?_⟩
    · show _ + 0 + _ = _ + 0 + _
      omega
    · show _ = (handlerPtrs hs.reverse).bind fun ps => some (ps ++ [])
      cases handlerPtrs hs.reverse <;> simp
    · rw [h1] at h2
      cases h2
      exact h3
    · rw [if_neg (by omega)]
      rfl
  | cons a l ih =>
    obtain ⟨ok, h, hpop, hok, hlast, hptr⟩ := Handler.populate_new a.type a.val w
    change h.last = a.type.lastOf a.val w.next at hlast
    have hun := last_uninit a.type a.val w.next
    have hbal := arg_balance a.type a.val w.next
    have hmr := count_made_replicate (a.type.makes a.val) w.next
    have hdo := count_destroyed_other (a.type.consumed a.val)
    have howned : ∀ o, (ownedAll (a :: l)).count o = (a.type.owned a.val).count o + (ownedAll l).count o :=
      fun o => List.count_append
    have hla : ∀ e, (lastAll (⟨a.type, h⟩ :: hs)).count e = (a.type.lastOf a.val w.next).count e + (lastAll hs).count e := fun e => by
      show (h.last ++ lastAll hs).count e = _
      rw [List.count_append, hlast]
    have hnc : ∀ e ∈ List.replicate (a.type.makes a.val) (ObjEvent.made w.next) ++ (a.type.consumed a.val).map ObjEvent.destroyed, ∀ ps, e ≠ .called ps := by
      intro e he ps hps
      subst hps
      rcases List.mem_append.mp he with he | he
      · cases List.eq_of_mem_replicate he
      · obtain ⟨_, _, he⟩ := List.mem_map.mp he
        cases he
    have hfresh : ∀ o, ObjWorld.times ⟨w.next + a.type.makes a.val, w.events ++ (List.replicate (a.type.makes a.val) (ObjEvent.made w.next) ++ (a.type.consumed a.val).map ObjEvent.destroyed)⟩ (.made o) =
        w.times (.made o) + (if w.next ≤ o ∧ o < w.next + a.type.makes a.val then 1 else 0) := by
      intro o
      simp only [ObjWorld.times, List.count_append, (hdo o).1, Nat.add_zero, Nat.add_left_cancel_iff]
      rcases makes_cases a.type a.val with hm | hm <;> rw [hm]
      · rw [if_neg (by omega)]
        rfl
      · show List.count (ObjEvent.made o) [.made w.next] = _
        by_cases ho : w.next = o
        · rw [if_pos (by omega), ho]; simp
        · rw [if_neg (by omega)]
          have : ¬ (ObjEvent.made w.next = .made o) := fun e => ho (ObjEvent.made.inj e)
          simp [this]
    rw [populateAll, hpop]
    cases hst : a.type.stops a.val with
    | true =>
      rw [hst] at hok
      subst hok
      have hfs : firstStop (a :: l) = some a := by simp [firstStop, hst]
      refine ⟨_, _, _, _, rfl, ?_, nofun, fun o => ?_, ?_, ?_, fun hm o => ?_, nofun, nofun, ⟨_, rfl, ?_⟩, Nat.le_add_right .., fun o => ?_⟩
      · rw [hfs]; rfl
      · simp only [ObjWorld.times, List.count_append, hla, howned, (hmr o).1, (hdo o).1]
        have := hbal o
        omega
      · simp only [ObjWorld.times, List.count_append, (hmr 0).2, (hdo 0).2]
        omega
      · rw [hla, hun, hfs]
        simp only [Option.any_some]
        omega
      · rw [hla, Verif.last_made, hm o]
      · intro e he
        exact hnc e he
      · exact hfresh o
    | false =>
      rw [hst] at hok
      subst hok
      have hcp : a.type.ctorPanics a.val = false := by
        cases hc : a.type.ctorPanics a.val with
        | false => rfl
        | true => rw [ctorPanics_stops hc] at hst; cases hst
      have hfs : firstStop (a :: l) = firstStop l := by simp [firstStop, hst]
      obtain ⟨ok, rest, hs', w', hrun, spec⟩ := ih (⟨a.type, h⟩ :: hs) ⟨w.next + a.type.makes a.val, w.events ++ (List.replicate (a.type.makes a.val) (ObjEvent.made w.next) ++ (a.type.consumed a.val).map ObjEvent.destroyed)⟩
      rw [hcp] at hptr hun
      refine ⟨ok, rest, hs', w', hrun, ?_, spec.none_left, fun o => ?_, ?_, ?_, fun hm => ?_, fun hk => ?_, fun hk ps qs h1 h2 h3 => ?_, ?_, Nat.le_trans (Nat.le_add_right ..) spec.fresh.1, fun o => ?_⟩
      · rw [hfs]; exact spec.ends
      · have h1 := spec.balance o
        have h2 := hbal o
        simp only [ObjWorld.times, List.count_append, hla, howned, (hmr o).1, (hdo o).1] at h1 ⊢
        omega
      · have h1 := spec.no_uninit
        simp only [ObjWorld.times, List.count_append, (hmr 0).2, (hdo 0).2] at h1 ⊢
        omega
      · have h1 := spec.uninit
        rw [hla, hun] at h1
        rw [hfs, h1]
        simp
      · refine spec.last_made fun o => ?_
        rw [hla, Verif.last_made, hm o]
      · rw [spec.pointers hk, List.reverse_cons, handlerPtrs_append]
        show ((handlerPtrs hs.reverse).bind fun ps => (h.getPtr.bind fun o => some [o]).map (ps ++ ·)).bind _ =
          (handlerPtrs hs.reverse).bind fun ps => ((a.type.handsOver a.val w.next).bind fun o => (pointersFor l _).map (o :: ·)).map (ps ++ ·)
        rw [hptr]
        cases handlerPtrs hs.reverse with
        | none => rfl
        | some ps =>
          show ((Option.bind (if false = true then none else a.type.handsOver a.val w.next) fun o => some [o]).map (ps ++ ·)).bind _ = _
          rw [if_neg (by decide)]
          cases a.type.handsOver a.val w.next with
          | none => rfl
          | some o =>
            show (pointersFor l _).map (ps ++ [o] ++ ·) = ((pointersFor l _).map (o :: ·)).map (ps ++ ·)
            cases pointersFor l (w.next + a.type.makes a.val) with
            | none => rfl
            | some qs => simp
      · cases hho : a.type.handsOver a.val w.next with
        | none =>
          exfalso
          rw [spec.pointers hk, List.reverse_cons, handlerPtrs_append, h2] at h1
          have hg : h.getPtr = none := by rw [hptr, if_neg (by decide), hho]
          have : handlerPtrs [⟨a.type, h⟩] = none := by
            show (h.getPtr.bind _) = none
            rw [hg]; rfl
          rw [this] at h1
          cases h1
        | some o =>
          refine spec.lasts hk (ps ++ [o]) qs h1 ?_ ?_
          · have hg : h.getPtr = some o := by rw [hptr, if_neg (by decide), hho]
            have : handlerPtrs [⟨a.type, h⟩] = some [o] := by
              show (h.getPtr.bind _) = some [o]
              rw [hg]; rfl
            rw [List.reverse_cons, handlerPtrs_append, h2, this]
            rfl
          · show h.last ++ lastAll hs = _
            rw [hlast, h3, SlotType.lastOf, hcp, if_neg (by decide), hho, List.reverse_append]
            rfl
      · obtain ⟨m, hm, hall⟩ := spec.grows
        refine ⟨_, hm.trans (List.append_assoc ..), fun e he => ?_⟩
        rcases List.mem_append.mp he with he | he
        · exact hnc e he
        · exact hall e he
      · rw [spec.fresh.2 o, hfresh o, Nat.add_assoc]
        have h1 := spec.fresh.1
        have h2 : w.next ≤ w'.next := Nat.le_trans (Nat.le_add_right ..) h1
        change w.next + a.type.makes a.val ≤ w'.next at h1
        congr 1
        show (if w.next ≤ o ∧ o < w.next + a.type.makes a.val then 1 else 0) + (if w.next + a.type.makes a.val ≤ o ∧ o < w'.next then 1 else 0) = _
        split <;> split <;> split <;> omega

/-- **The books are balanced** after every call of a generated function, whatever it was given and whether or not something panicked: each object has been
destroyed as often as arguments owned it, and once more if it was made for the call. -/
theorem value_args_balanced (args : List SlotArg) (n o : Nat) :
    (wrapperFrame args ⟨n, []⟩).times (.destroyed o) = (ownedAll args).count o + (wrapperFrame args ⟨n, []⟩).times (.made o) := by
  obtain ⟨ok, rest, hs, w, hrun, spec⟩ := populateAll_spec args [] ⟨n, []⟩
  have hb := spec.balance o
  have hlm := spec.last_made (fun _ => rfl) o
  simp only [ObjWorld.times, lastAll, List.flatMap_nil, List.count_nil] at hb
  change _ + (lastAll hs).count _ + _ + _ = _ at hb
  rw [wrapperFrame, hrun]
  cases ok with
  | true =>
    rw [spec.none_left rfl] at hb
    simp only [ownedAll, List.flatMap_nil, List.count_nil] at hb
    change _ = _ + (ownedAll args).count o + _ at hb
    cases hp : handlerPtrs hs.reverse with
    | none =>
      simp only [hp, dropHandlers_eq, ObjWorld.times, List.count_append]
      omega
    | some ps =>
      have h1 : List.count (ObjEvent.destroyed o) [.called ps] = 0 := rfl
      have h2 : List.count (ObjEvent.made o) [.called ps] = 0 := rfl
      simp only [hp, dropHandlers_eq, ObjWorld.times, ObjWorld.log, List.count_append, h1, h2]
      omega
  | false =>
    have := count_destroyed_other (ownedAll rest) o
    simp only [dropArgs_eq, dropHandlers_eq, ObjWorld.times, List.count_append, count_destroyed, this.1]
    omega

/-- The objects which are made for a call are new ones, each of which is made once. -/
theorem value_args_fresh (args : List SlotArg) (n o : Nat) :
    (wrapperFrame args ⟨n, []⟩).times (.made o) ≤ 1 ∧ ((wrapperFrame args ⟨n, []⟩).times (.made o) ≠ 0 → n ≤ o) := by
  obtain ⟨ok, rest, hs, w, hrun, spec⟩ := populateAll_spec args [] ⟨n, []⟩
  have hlm := spec.last_made (fun _ => rfl) o
  have hf := spec.fresh.2 o
  have h0 : ObjWorld.times ⟨n, []⟩ (.made o) = 0 := rfl
  have key : (wrapperFrame args ⟨n, []⟩).times (.made o) = w.times (.made o) := by
    rw [wrapperFrame, hrun]
    cases ok with
    | true =>
      cases hp : handlerPtrs hs.reverse with
      | none =>
        simp only [hp, dropHandlers_eq, ObjWorld.times, List.count_append, hlm]
        omega
      | some ps =>
        have h2 : List.count (ObjEvent.made o) [.called ps] = 0 := rfl
        simp only [hp, dropHandlers_eq, ObjWorld.times, ObjWorld.log, List.count_append, h2, hlm]
        omega
    | false =>
      have := count_destroyed_other (ownedAll rest) o
      simp only [dropArgs_eq, dropHandlers_eq, ObjWorld.times, List.count_append, this.1, hlm]
      omega
  rw [key, hf, h0, Nat.zero_add]
  change (if n ≤ o ∧ o < w.next then 1 else 0) ≤ 1 ∧ ((if n ≤ o ∧ o < w.next then 1 else 0) ≠ 0 → n ≤ o)
  split <;> simp_all

/-- **Each object is destroyed exactly once**: if no two arguments own the same object, then after every call, whether or not something panicked, exactly
the objects which arguments owned and the objects which were made have been destroyed, each of them once. -/
theorem value_args_destroyed_once (args : List SlotArg) (n : Nat) (hnodup : (ownedAll args).Nodup) (hold : ∀ o ∈ ownedAll args, o < n) (o : Nat) :
    (wrapperFrame args ⟨n, []⟩).times (.destroyed o) =
      if o ∈ ownedAll args ∨ ObjEvent.made o ∈ (wrapperFrame args ⟨n, []⟩).events then 1 else 0 := by
  have hf := value_args_fresh args n o
  rw [value_args_balanced]
  have hmem : ObjEvent.made o ∈ (wrapperFrame args ⟨n, []⟩).events ↔ (wrapperFrame args ⟨n, []⟩).times (.made o) ≠ 0 := by
    rw [ObjWorld.times, Ne, List.count_eq_zero, not_not]
  have hc : (ownedAll args).count o = if o ∈ ownedAll args then 1 else 0 := by
    split
    · exact List.count_eq_one_of_mem hnodup ‹_›
    · exact List.count_eq_zero.mpr ‹_›
  rw [hc]
  by_cases ho : o ∈ ownedAll args
  · have := hold o ho
    rw [if_pos ho, if_pos (Or.inl ho)]
    have : (wrapperFrame args ⟨n, []⟩).times (.made o) = 0 := by
      by_contra h
      have := hf.2 h
      omega
    omega
  · rw [if_neg ho]
    by_cases hm : (wrapperFrame args ⟨n, []⟩).times (.made o) = 0
    · rw [if_neg (by rw [hmem]; simp [ho, hm])]
      omega
    · rw [if_pos (Or.inr (hmem.mpr hm))]
      omega

/-- **When a destructor runs on memory which no constructor filled**: exactly if the first argument which stops the call does so because its constructor
panicked; then it is run once. -/
theorem value_args_uninit (args : List SlotArg) (n : Nat) :
    (wrapperFrame args ⟨n, []⟩).times .destroyedUninit =
      if (firstStop args).any (fun a => a.type.ctorPanics a.val) then 1 else 0 := by
  obtain ⟨ok, rest, hs, w, hrun, spec⟩ := populateAll_spec args [] ⟨n, []⟩
  have hu := spec.uninit
  have hn := spec.no_uninit
  have h0 : ObjWorld.times ⟨n, []⟩ .destroyedUninit = 0 := rfl
  have h00 : List.count ObjEvent.destroyedUninit (lastAll []) = 0 := rfl
  rw [h0, ObjWorld.times] at hn
  rw [h00, Nat.zero_add] at hu
  rw [wrapperFrame, hrun, ← hu]
  cases ok with
  | true =>
    cases hp : handlerPtrs hs.reverse with
    | none => simp only [hp, dropHandlers_eq, ObjWorld.times, List.count_append, hn]; omega
    | some ps =>
      have h1 : List.count ObjEvent.destroyedUninit [.called ps] = 0 := rfl
      simp only [hp, dropHandlers_eq, ObjWorld.times, ObjWorld.log, List.count_append, hn, h1]; omega
  | false => simp only [dropArgs_eq, dropHandlers_eq, ObjWorld.times, List.count_append, hn, (count_destroyed_other (ownedAll rest) 0).2]; omega

theorem pointersFor_none (args : List SlotArg) (n : Nat) : pointersFor args n = none ↔ ∃ a ∈ args, a.type.isNull a.val = true := by
  have hone : ∀ (t : SlotType) (v : t.Val) (n : Nat), t.handsOver v n = none ↔ t.isNull v = true := by
    intro t v n
    rcases t with t | t <;> cases t
    case value.uniquePtr | rvalue.uniquePtr =>
      rcases v with _ | o
      · exact ⟨fun _ => rfl, fun _ => rfl⟩
      · exact ⟨nofun, nofun⟩
    case value.refUniquePtr =>
      rcases v with _ | o
      · exact ⟨fun _ => rfl, fun _ => rfl⟩
      · exact ⟨nofun, nofun⟩
    all_goals exact ⟨nofun, nofun⟩
  induction args generalizing n with
  | nil => exact ⟨nofun, nofun⟩
  | cons a l ih =>
    have ih := ih (n + a.type.makes a.val)
    rw [pointersFor, List.exists_mem_cons_iff]
    refine Iff.trans ?_ (or_congr (hone a.type a.val n) ih)
    cases a.type.handsOver a.val n with
    | none => simp
    | some o => simp

/-- **When C++ is called, and with what**: exactly if no argument is null and no constructor panics. Then it is called once, with a pointer for each argument, in the
order of the arguments; nothing of what they point to has been destroyed, each was owned by an argument or has been made; and after it exactly what they point
to is destroyed, the latest first. -/
theorem value_args_called (args : List SlotArg) (n : Nat) (hnodup : (ownedAll args).Nodup) (hold : ∀ o ∈ ownedAll args, o < n) :
    (∀ ps, ObjEvent.called ps ∈ (wrapperFrame args ⟨n, []⟩).events → ∀ a ∈ args, a.type.isNull a.val = false ∧ a.type.ctorPanics a.val = false) ∧
    ((∀ a ∈ args, a.type.isNull a.val = false ∧ a.type.ctorPanics a.val = false) →
      ∃ before ps, pointersFor args n = some ps ∧
        (wrapperFrame args ⟨n, []⟩).events = before ++ .called ps :: ps.reverse.map .destroyed ∧
        (∀ ps', .called ps' ∉ before) ∧
        ∀ p ∈ ps, .destroyed p ∉ before ∧ (p ∈ ownedAll args ∨ .made p ∈ before)) := by
  have honce := value_args_destroyed_once args n hnodup hold
  obtain ⟨ok, rest, hs, w, hrun, spec⟩ := populateAll_spec args [] ⟨n, []⟩
  have hstop : ∀ a ∈ args, firstStop args = none → a.type.stops a.val = false := fun a ha h => by
    have := List.find?_eq_none.mp h a ha
    simpa using this
  have hptrs : ok = true → handlerPtrs hs.reverse = pointersFor args n := fun h => by
    rw [spec.pointers h]
    show (pointersFor args n).map (fun x => x) = _
    simp
  have hcalls : ∀ hs : List SomeHandler, ∀ ps, ObjEvent.called ps ∉ lastAll hs := by
    intro hs ps hps
    obtain ⟨h, -, hps⟩ := List.mem_flatMap.mp hps
    obtain ⟨t, h⟩ := h
    cases h with
    | @value t h =>
      obtain ⟨s⟩ := h
      cases t <;> rcases s with _ | s <;> first | (cases hps; done) | (rcases s with _ | o <;> first | (cases hps; done) | (cases (List.mem_singleton.mp hps)))
    | @rvalue t h =>
      obtain ⟨s⟩ := h
      cases t <;> rcases s with _ | s <;> first | (cases hps; done) | (rcases s with _ | o <;> first | (cases hps; done) | (cases (List.mem_singleton.mp hps)))
  have hpre : ∀ ps, ObjEvent.called ps ∉ w.events := by
    obtain ⟨l, hl, hall⟩ := spec.grows
    intro ps hps
    rw [hl] at hps
    exact hall _ hps ps rfl
  refine ⟨fun ps hps a ha => ?_, fun hall => ?_⟩
  · rw [wrapperFrame, hrun] at hps
    cases ok with
    | false =>
      simp only [dropArgs_eq, dropHandlers_eq] at hps
      rcases List.mem_append.mp hps with hps | hps
      · rcases List.mem_append.mp hps with hps | hps
        · exact absurd hps (hpre ps)
        · exact absurd hps (hcalls hs ps)
      · obtain ⟨_, _, h⟩ := List.mem_map.mp hps
        cases h
    | true =>
      have hfs : firstStop args = none := by have := spec.ends; exact Option.isNone_iff_eq_none.mp this.symm
      have hs' := hstop a ha hfs
      have hcp : a.type.ctorPanics a.val = false := by
        cases hc : a.type.ctorPanics a.val with
        | false => rfl
        | true => rw [ctorPanics_stops hc] at hs'; cases hs'
      refine ⟨?_, hcp⟩
      cases hp : pointersFor args n with
      | none =>
        rw [← hptrs rfl] at hp
        simp only [hp, dropHandlers_eq] at hps
        rcases List.mem_append.mp hps with hps | hps
        · exact absurd hps (hpre ps)
        · exact absurd hps (hcalls hs ps)
      | some qs =>
        have : ¬ ∃ a ∈ args, a.type.isNull a.val = true := fun h => by rw [(pointersFor_none args n).mpr h] at hp; cases hp
        cases hn : a.type.isNull a.val with
        | false => rfl
        | true => exact absurd ⟨a, ha, hn⟩ this
  · have hfs : firstStop args = none := by
      rw [firstStop, List.find?_eq_none]
      intro a ha
      have := hall a ha
      simp [SlotType.stops, this.1, this.2]
    have hok : ok = true := by rw [spec.ends, hfs]; rfl
    cases hp : pointersFor args n with
    | none =>
      obtain ⟨a, ha, hn⟩ := (pointersFor_none args n).mp hp
      rw [(hall a ha).1] at hn
      cases hn
    | some ps =>
      have hps := hptrs hok
      rw [hp] at hps
      have hlast := spec.lasts hok [] ps hps rfl rfl
      have hev : (wrapperFrame args ⟨n, []⟩).events = w.events ++ .called ps :: ps.reverse.map .destroyed := by
        rw [wrapperFrame, hrun, hok]
        simp only [hps, dropHandlers_eq, hlast, ObjWorld.log, List.append_assoc]
        rfl
      refine ⟨w.events, ps, rfl, hev, hpre, fun p hpm => ?_⟩
      have h1 := honce p
      have hpost : 1 ≤ (ps.reverse.map ObjEvent.destroyed).count (.destroyed p) := by
        rw [count_destroyed]
        exact List.count_pos_iff.mpr (List.mem_reverse.mpr hpm)
      have hcount : (wrapperFrame args ⟨n, []⟩).times (.destroyed p) = w.events.count (.destroyed p) + (ps.reverse.map ObjEvent.destroyed).count (.destroyed p) := by
        rw [ObjWorld.times, hev, List.count_append]
        congr 1
      rw [hcount] at h1
      split at h1
      · rename_i hor
        refine ⟨List.count_eq_zero.mp (by omega), hor.imp id fun hm => ?_⟩
        rw [hev] at hm
        rcases List.mem_append.mp hm with hm | hm
        · exact hm
        · rcases List.mem_cons.mp hm with hm | hm
          · cases hm
          · obtain ⟨_, _, h⟩ := List.mem_map.mp hm
            cases h
      · omega

/-! ## The life of one handler, whatever is done with it -/

/-- Overwriting what is in a slot of this type destroys it: it is an owning pointer, not memory. -/
def SlotType.owning : SlotType → Bool
  | .value .uniquePtr => true
  | .value .pinBox => true
  | .value _ => false
  | .rvalue _ => true

/-- A reference to a null pointer. -/
def SlotType.nullRef (t : SlotType) (v : t.Val) : Bool := decide (t = .value .refUniquePtr) && t.isNull v

theorem Handler.populate_any {t : SlotType} (h : Handler t) (v : t.Val) (w : ObjWorld) :
    ∃ ok h', h.populate v w =
        (ok, h', ⟨w.next + t.makes v, w.events ++ ((if t.owning then h.last else []) ++ (List.replicate (t.makes v) (ObjEvent.made w.next) ++ (t.consumed v).map ObjEvent.destroyed))⟩) ∧
      h'.last = (if t.nullRef v then h.last else t.lastOf v w.next) := by
  have hnil : w = ⟨w.next, w.events ++ []⟩ := by rw [List.append_nil]
  cases h with
  | @value t h =>
    obtain ⟨s⟩ := h
    cases t
    case ref | refPinBox =>
      obtain ⟨o, _ | _⟩ := v <;> rcases s with _ | s
      · exact ⟨_, _, rfl, rfl⟩
      · exact ⟨_, _, rfl, rfl⟩
      · exact ⟨_, _, congrArg (fun x => (_, _, x)) hnil, rfl⟩
      · exact ⟨_, _, congrArg (fun x => (_, _, x)) hnil, rfl⟩
    case refUniquePtr =>
      rcases v with _ | ⟨o, _ | _⟩ <;> rcases s with _ | s
      · exact ⟨_, _, congrArg (fun x => (_, _, x)) hnil, rfl⟩
      · exact ⟨_, _, congrArg (fun x => (_, _, x)) hnil, rfl⟩
      · exact ⟨_, _, rfl, rfl⟩
      · exact ⟨_, _, rfl, rfl⟩
      · exact ⟨_, _, congrArg (fun x => (_, _, x)) hnil, rfl⟩
      · exact ⟨_, _, congrArg (fun x => (_, _, x)) hnil, rfl⟩
    case byNew =>
      obtain ⟨os, _ | _⟩ := v <;> rcases s with _ | s
      case false.none | false.some =>
        refine ⟨_, _, congrArg (fun x => (_, _, x)) ((ObjWorld.destroyAll_eq os _).trans ?_), rfl⟩
        show _ = ObjWorld.mk (w.next + 1) (w.events ++ ([ObjEvent.made w.next] ++ os.map ObjEvent.destroyed))
        rw [← List.append_assoc]
        rfl
      all_goals exact ⟨_, _, congrArg (fun x => (_, _, x)) (ObjWorld.destroyAll_eq os _), rfl⟩
    case uniquePtr =>
      rcases v with _ | o <;> rcases s with _ | _ | s
      case none.some.some | some.some.some => exact ⟨_, _, rfl, rfl⟩
      all_goals exact ⟨_, _, congrArg (fun x => (_, _, x)) hnil, rfl⟩
    case pinBox =>
      rcases s with _ | s
      · exact ⟨_, _, congrArg (fun x => (_, _, x)) hnil, rfl⟩
      · exact ⟨_, _, rfl, rfl⟩
  | @rvalue t h =>
    obtain ⟨s⟩ := h
    cases t
    case uniquePtr =>
      rcases v with _ | o <;> rcases s with _ | _ | s
      case none.some.some | some.some.some => exact ⟨_, _, rfl, rfl⟩
      all_goals exact ⟨_, _, congrArg (fun x => (_, _, x)) hnil, rfl⟩
    all_goals
      rcases s with _ | s
      · exact ⟨_, _, congrArg (fun x => (_, _, x)) hnil, rfl⟩
      · exact ⟨_, _, rfl, rfl⟩

/-- The objects which the values own which are put in a slot. -/
def HandlerOp.owned {t : SlotType} : HandlerOp t → List Nat
  | .populate p => t.owned p
  | .getPtr => []

/-- The operation fills the slot. -/
def HandlerOp.isPopulate {t : SlotType} : HandlerOp t → Bool
  | .populate _ => true
  | .getPtr => false

theorem dropAll_eq {t : SlotType} (ops : List (HandlerOp t)) (w : ObjWorld) :
    HandlerOp.runAll.HandlerOp.dropAll ops w = ⟨w.next, w.events ++ (ops.flatMap HandlerOp.owned).map ObjEvent.destroyed⟩ := by
  induction ops generalizing w with
  | nil => show w = ⟨w.next, w.events ++ []⟩; rw [List.append_nil]
  | cons op l ih =>
    cases op with
    | getPtr => exact ih w
    | populate p =>
      show HandlerOp.runAll.HandlerOp.dropAll l (t.dropVal p w) = _
      rw [ih, SlotType.dropVal_eq]
      show ObjWorld.mk _ (w.events ++ (t.owned p).map _ ++ (l.flatMap HandlerOp.owned).map _) = ObjWorld.mk _ (w.events ++ (_ ++ l.flatMap _).map _)
      rw [List.append_assoc, List.map_append]
      rfl

theorem Handler.last_made {t : SlotType} (h : Handler t) (o : Nat) : h.last.count (.made o) = 0 := by
  rw [List.count_eq_zero]
  intro hps
  cases h with
  | @value t h =>
    obtain ⟨s⟩ := h
    cases t <;> rcases s with _ | s <;> first | (cases hps; done) | (rcases s with _ | o <;> first | (cases hps; done) | (cases (List.mem_singleton.mp hps)))
  | @rvalue t h =>
    obtain ⟨s⟩ := h
    cases t <;> rcases s with _ | s <;> first | (cases hps; done) | (rcases s with _ | o <;> first | (cases hps; done) | (cases (List.mem_singleton.mp hps)))

/-- The state of a handler after everything, and its dropping. -/
def finish {t : SlotType} (r : Handler t × ObjWorld) : ObjWorld := r.1.drop r.2

theorem nullRef_nothing {t : SlotType} {v : t.Val} (h : t.nullRef v = true) :
    t.makes v = 0 ∧ t.consumed v = [] ∧ t.owned v = [] ∧ t.owning = false := by
  unfold SlotType.nullRef at h
  rw [Bool.and_eq_true, decide_eq_true_eq] at h
  obtain ⟨rfl, h⟩ := h
  rcases v with _ | p
  · exact ⟨rfl, rfl, rfl, rfl⟩
  · cases h

/-- The books of a run of operations: never too much, and exactly right if slots of the type own, or nothing is put in a slot, or at most one value is put in a
slot which is empty. -/
theorem runAll_balance {t : SlotType} (ops : List (HandlerOp t)) (h : Handler t) (w : ObjWorld) (o : Nat) :
    let f := finish (HandlerOp.runAll ops h w)
    (f.times (.destroyed o) + w.times (.made o) ≤
      w.times (.destroyed o) + h.last.count (.destroyed o) + (ops.flatMap HandlerOp.owned).count o + f.times (.made o)) ∧
    ((t.owning = true ∨ (ops.countP HandlerOp.isPopulate = 0) ∨ (h.last = [] ∧ ops.countP HandlerOp.isPopulate ≤ 1)) →
      f.times (.destroyed o) + w.times (.made o) =
        w.times (.destroyed o) + h.last.count (.destroyed o) + (ops.flatMap HandlerOp.owned).count o + f.times (.made o)) := by
  intro f
  subst f
  induction ops generalizing h w with
  | nil =>
    have hl := h.last_made o
    simp only [HandlerOp.runAll, finish, Handler.drop_eq, ObjWorld.times, List.count_append, List.flatMap_nil, List.count_nil, hl]
    constructor
    · omega
    · intro; omega
  | cons op l ih =>
    cases op with
    | getPtr =>
      rw [HandlerOp.runAll]
      cases h.getPtr with
      | some p => exact ih h w
      | none =>
        have hl := h.last_made o
        have hdo := count_destroyed_other (l.flatMap HandlerOp.owned) o
        have hfm : (HandlerOp.getPtr :: l : List (HandlerOp t)).flatMap HandlerOp.owned = l.flatMap HandlerOp.owned := rfl
        simp only [finish, Handler.drop_eq, dropAll_eq, ObjWorld.times, List.count_append, hl, count_destroyed, hdo.1, hfm]
        constructor
        · omega
        · intro; omega
    | populate p =>
      obtain ⟨ok, h', hpop, hlast⟩ := h.populate_any p w
      have hbal := arg_balance t p w.next o
      have hmr := count_made_replicate (t.makes p) w.next o
      have hdo := count_destroyed_other (t.consumed p) o
      have hlm := h.last_made o
      have hlm' := h'.last_made o
      have hfm : (((.populate p : HandlerOp t) :: l).flatMap HandlerOp.owned).count o = (t.owned p).count o + (l.flatMap HandlerOp.owned).count o :=
        List.count_append
      have hov : ∀ e, (if t.owning = true then h.last else []).count e = if t.owning = true then h.last.count e else 0 := by
        intro e; split <;> rfl
      have hcp : ((.populate p : HandlerOp t) :: l).countP HandlerOp.isPopulate = l.countP HandlerOp.isPopulate + 1 := by
        rw [List.countP_cons]; rfl
      have hlast' : h'.last.count (.destroyed o) = if t.nullRef p = true then h.last.count (.destroyed o) else (t.lastOf p w.next).count (.destroyed o) := by
        rw [hlast]; split <;> rfl
      have hnull : t.nullRef p = true → (t.owned p).count o = 0 ∧ (List.replicate (t.makes p) (ObjEvent.made w.next)).count (.made o) = 0 ∧
          ((t.consumed p).map ObjEvent.destroyed).count (.destroyed o) = 0 ∧ t.owning = false := fun hn => by
        obtain ⟨h1, h2, h3, h4⟩ := nullRef_nothing hn
        rw [h1, h2, h3, h4]
        exact ⟨rfl, rfl, rfl, rfl⟩
      rw [HandlerOp.runAll, hpop]
      cases ok with
      | true =>
        have ih := ih h' ⟨w.next + t.makes p, w.events ++ ((if t.owning = true then h.last else []) ++ (List.replicate (t.makes p) (ObjEvent.made w.next) ++ (t.consumed p).map ObjEvent.destroyed))⟩
        generalize finish (HandlerOp.runAll l h' _) = f at ih ⊢
        simp only [ObjWorld.times, List.count_append, hov, hlm, hmr.1, hdo.1] at ih
        simp only [ObjWorld.times, hfm, hcp]
        obtain ⟨ih1, ih2⟩ := ih
        by_cases hn : t.nullRef p = true
        · obtain ⟨h1, h2, h3, h4⟩ := hnull hn
          rw [if_pos hn] at hlast'
          rw [h4] at ih1 ih2 ⊢
          simp only [Bool.false_eq_true, if_false, false_or] at ih1 ih2 ⊢
          refine ⟨by omega, fun hc => ?_⟩
          have := ih2 (Or.inl (by omega))
          omega
        · rw [if_neg hn] at hlast'
          cases hown : t.owning with
          | true =>
            rw [hown] at ih1 ih2
            simp only [if_true, true_or, forall_const] at ih1 ih2
            refine ⟨by omega, fun _ => by omega⟩
          | false =>
            rw [hown] at ih1 ih2
            simp only [Bool.false_eq_true, if_false, false_or] at ih1 ih2 ⊢
            refine ⟨by omega, fun hc => ?_⟩
            rcases hc with hc | ⟨hc0, hc⟩
            · omega
            · have hz : h.last.count (ObjEvent.destroyed o) = 0 := by rw [hc0]; rfl
              have := ih2 (Or.inl (by omega))
              omega
      | false =>
        have hdl := count_destroyed_other (l.flatMap HandlerOp.owned) o
        simp only [finish, Handler.drop_eq, dropAll_eq, ObjWorld.times, List.count_append, hov, hlm, hmr.1, hdo.1, count_destroyed, hdl.1, hfm, hcp, hlm', hlast']
        rw [count_destroyed] at hbal hnull
        by_cases hn : t.nullRef p = true
        · obtain ⟨h1, h2, h3, h4⟩ := hnull hn
          simp only [h4, hn, Bool.false_eq_true, if_false, if_true, false_or]
          refine ⟨by omega, fun hc => by omega⟩
        · simp only [hn, Bool.false_eq_true, if_false]
          cases hown : t.owning with
          | true =>
            simp only [if_true]
            refine ⟨by omega, fun _ => by omega⟩
          | false =>
            simp only [Bool.false_eq_true, if_false, false_or]
            refine ⟨by omega, fun hc => ?_⟩
            rcases hc with hc | ⟨hc0, hc⟩
            · omega
            · have hz : h.last.count (ObjEvent.destroyed o) = 0 := by rw [hc0]; rfl
              omega

theorem Handler.new_last (t : SlotType) : (Handler.new t).last = [] := by
  rcases t with t | t <;> cases t <;> rfl

/-- **Nothing is destroyed twice**, whatever is done with a handler: each object is destroyed at most as often as it was owned by what was put in, and once more if it
was made. -/
theorem handler_never_twice {t : SlotType} (ops : List (HandlerOp t)) (n o : Nat) :
    (handlerLife ops ⟨n, []⟩).times (.destroyed o) ≤ (ops.flatMap HandlerOp.owned).count o + (handlerLife ops ⟨n, []⟩).times (.made o) := by
  have := (runAll_balance ops (Handler.new t) ⟨n, []⟩ o).1
  rw [Handler.new_last] at this
  change (handlerLife ops ⟨n, []⟩).times _ + 0 ≤ 0 + 0 + _ + (handlerLife ops ⟨n, []⟩).times _ at this
  omega

/-- **Everything is destroyed**, if at most one value is put in a handler, as its users have to guarantee, or if its slot holds an owning pointer: whenever it panics
and however often its pointer is asked for, before or after, each object is destroyed exactly as often as it was owned by what was put in, and once more if it was
made. -/
theorem handler_destroys {t : SlotType} (ops : List (HandlerOp t)) (h : t.owning = true ∨ ops.countP HandlerOp.isPopulate ≤ 1) (n o : Nat) :
    (handlerLife ops ⟨n, []⟩).times (.destroyed o) = (ops.flatMap HandlerOp.owned).count o + (handlerLife ops ⟨n, []⟩).times (.made o) := by
  have := (runAll_balance ops (Handler.new t) ⟨n, []⟩ o).2 (h.imp id fun h => Or.inr ⟨Handler.new_last t, h⟩)
  rw [Handler.new_last] at this
  change (handlerLife ops ⟨n, []⟩).times _ + 0 = 0 + 0 + _ + (handlerLife ops ⟨n, []⟩).times _ at this
  omega

/-! ## Witnesses -/

/-- A life with all kinds of arguments: a reference which is copied, a `UniquePtr`, a box, and a constructor which moves out of a box, which is dropped by it. -/
def exSlots : List SlotArg :=
  [⟨.value .ref, (⟨0, false⟩ : Lent)⟩, ⟨.value .uniquePtr, (some 1 : UniquePtr)⟩, ⟨.value .byNew, (⟨[2], false⟩ : NewCtor)⟩, ⟨.rvalue .moveRef, (3 : Nat)⟩,
   ⟨.value .refUniquePtr, (some ⟨4, false⟩ : Option Lent)⟩]

theorem exSlots_run : (wrapperFrame exSlots ⟨10, []⟩).events =
    [.made 10, .made 11, .destroyed 2, .made 12, .called [10, 1, 11, 3, 12], .destroyed 12, .destroyed 3, .destroyed 11, .destroyed 1, .destroyed 10] := by
  decide +kernel

example : (ownedAll exSlots).Nodup ∧ ∀ o ∈ ownedAll exSlots, o < 10 := by decide +kernel

/-- A null pointer stops the call; everything is destroyed nevertheless. -/
theorem exSlots_null : (wrapperFrame (exSlots ++ [⟨.value .refUniquePtr, (none : Option Lent)⟩, ⟨.value .pinBox, (5 : Nat)⟩]) ⟨10, []⟩).events =
    [.made 10, .made 11, .destroyed 2, .made 12, .destroyed 12, .destroyed 3, .destroyed 11, .destroyed 1, .destroyed 10, .destroyed 5] := by
  decide +kernel

/-- **The property fails** when a constructor panics: the handler takes its memory for filled, and the destructor of the C++ type is run on it although there is no
object. All it takes is one argument. -/
theorem panicking_constructor_false :
    ∃ a : SlotArg, (wrapperFrame [a] ⟨0, []⟩).events = [.destroyedUninit] :=
  ⟨⟨.value .byNew, (⟨[], true⟩ : NewCtor)⟩, by decide +kernel⟩

/-- Copying a reference twice into the same slot loses the first copy, which is why the users of a handler have to fill it once only. -/
theorem populate_twice_witness :
    ∃ ops : List (HandlerOp (.value .ref)), (handlerLife ops ⟨10, []⟩).events = [.made 10, .made 11, .destroyed 11] :=
  ⟨[.populate (⟨0, false⟩ : Lent), .populate (⟨0, false⟩ : Lent)], by decide +kernel⟩

/-- Nothing fails if no constructor panics: no destructor is run on memory which is not filled. -/
theorem value_args_no_uninit_partial (args : List SlotArg) (n : Nat) (h : ∀ a ∈ args, a.type.ctorPanics a.val = false) :
    (wrapperFrame args ⟨n, []⟩).times .destroyedUninit = 0 := by
  rw [value_args_uninit, if_neg]
  intro hs
  cases hf : firstStop args with
  | none => rw [hf] at hs; cases hs
  | some a =>
    rw [hf] at hs
    have := h a (List.mem_of_find?_eq_some hf)
    rw [Option.any_some, this] at hs
    cases hs

end Verif
