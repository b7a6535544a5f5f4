import Verif.CppRefs

/-!
# C72: C++ references held by Rust code refer to what they were taken from

A program may make objects, pin them, move the pins about, take references, turn these into one another and let C++ write
through them, in any order. The theorems are about every such program, of any length.
-/

set_option autoImplicit false

namespace Verif

/-! ### Specification -/

/-- The object is there, in this place, with this value. -/
def RefState.Live (s : RefState) (i : Nat) (a : Addr) (v : Nat) : Prop := AMap.get? s.mem a = some ⟨i, v⟩

/-- The variable owns what is in this place. -/
def RefState.Owns (s : RefState) (x : String) (a : Addr) : Prop := ∃ o, AMap.get? s.owners x = some o ∧ o.addr = some a

/-- The variable holds a reference to this place which was taken from this object. -/
def RefState.Holds (s : RefState) (y : String) (i : Nat) (a : Addr) : Prop :=
  ∃ r : HeldRef, AMap.get? s.refs y = some (r, some i) ∧ r.addr = a

/-- The program does not assign to what a pin's `deref_mut` gives. -/
def NoDerefAssign (ops : List RefOp) : Prop := ∀ x y, RefOp.derefAssign x y ∉ ops

/-- Who owns what. -/
structure OwnInv (s : RefState) : Prop where
  owned : ∀ x a, s.Owns x a → ∃ i v, s.Live i a v
  owner : ∀ i a v, s.Live i a v → ∃ x, s.Owns x a
  alone : ∀ x y a, s.Owns x a → s.Owns y a → x = y
  null : ∀ i a v, s.Live i a v → a ≠ 0
  once : ∀ i a b v w, s.Live i a v → s.Live i b w → a = b
  live : ∀ i a v, s.Live i a v → i < s.made ∧ i ∉ s.freed
  freed : s.freed.Nodup ∧ ∀ i ∈ s.freed, i < s.made
  all : ∀ i, i < s.made → i ∈ s.freed ∨ ∃ a v, s.Live i a v

/-- What references refer to. -/
structure AimInv (s : RefState) : Prop where
  pin : ∀ x p, AMap.get? s.owners x = some (.pin p) → p.ref.ptr = p.contents
  uniquePin : ∀ x p, AMap.get? s.owners x = some (.uniquePin p) → p.ref.ptr = p.item.getD 0
  refs : ∀ y i a, s.Holds y i a → i < s.made ∧ ∀ b v, s.Live i b v → a = b
  nulls : ∀ y r, AMap.get? s.refs y = some (r, none) → r.addr = 0

/-! ### The invariant -/

theorem ownInv_start : OwnInv {} where
  owned := fun _ _ ⟨_, h, _⟩ => by cases h
  owner := fun _ _ _ h => by cases h
  alone := fun _ _ _ ⟨_, h, _⟩ => by cases h
  null := fun _ _ _ h => by cases h
  once := fun _ _ _ _ _ h => by cases h
  live := fun _ _ _ h => by cases h
  freed := ⟨List.nodup_nil, fun _ h => by cases h⟩
  all := fun _ h => by cases h

theorem aimInv_start : AimInv {} where
  pin := fun _ _ h => by cases h
  uniquePin := fun _ _ h => by cases h
  refs := fun _ _ _ ⟨_, h, _⟩ => by cases h
  nulls := fun _ _ h => by cases h

theorem isSome_false {α : Type} {o : Option α} (h : ¬ o.isSome = true) : o = none := by
  cases o with
  | none => rfl
  | some => exact absurd rfl h

/-- What a new object means. -/
theorem alloc_ok {s s' : RefState} {x : String} {a : Addr} {v : Nat} {o : RefOwner} (h : s.alloc x a v o = .ok s') :
    a ≠ 0 ∧ AMap.get? s.mem a = none ∧ AMap.get? s.owners x = none ∧
    s' = { s with mem := AMap.insert s.mem a ⟨s.made, v⟩, made := s.made + 1, owners := AMap.insert s.owners x o } := by
  rw [RefState.alloc] at h
  split at h
  · cases h
  · rename_i hc
    obtain ⟨h1, h2⟩ := not_or.1 hc
    obtain ⟨h2, h3⟩ := not_or.1 h2
    cases h
    exact ⟨h1, isSome_false h2, isSome_false h3, rfl⟩

theorem pass_ok {s s' : RefState} {x y : String} {o : RefOwner} (h : s.pass x y o = .ok s') :
    AMap.get? s.owners x = none ∧ s' = { s with owners := AMap.insert (AMap.erase s.owners y) x o } := by
  rw [RefState.pass] at h
  split at h
  · cases h
  · rename_i hc
    cases h
    exact ⟨isSome_false hc, rfl⟩

theorem write_ok {s s' : RefState} {a : Addr} {v : Nat} (h : s.write a v = .ok s') :
    ∃ i w, s.Live i a w ∧ s' = { s with mem := AMap.insert s.mem a ⟨i, v⟩ } := by
  rw [RefState.write] at h
  split at h
  · rename_i o ho
    cases h
    exact ⟨o.id, o.val, ho, rfl⟩
  · cases h

theorem OwnInv.alloc {s s' : RefState} (inv : OwnInv s) {x : String} {a : Addr} {v : Nat} {o : RefOwner}
    (ho : o.addr = some a) (h : s.alloc x a v o = .ok s') : OwnInv s' := by
  obtain ⟨h0, hm, hx, rfl⟩ := alloc_ok h
  have hlive : ∀ i b w, RefState.Live { s with mem := AMap.insert s.mem a ⟨s.made, v⟩, made := s.made + 1, owners := AMap.insert s.owners x o } i b w ↔
      (b = a ∧ i = s.made ∧ w = v) ∨ (b ≠ a ∧ s.Live i b w) := by
    intro i b w
    simp only [RefState.Live, AMap.get?_insert]
    by_cases e : a = b
    · subst e
      simp
      exact ⟨fun ⟨h1, h2⟩ => ⟨h1.symm, h2.symm⟩, fun ⟨h1, h2⟩ => ⟨h1.symm, h2.symm⟩⟩
    · simp [e, Ne.symm e]
  have hown : ∀ y b, RefState.Owns { s with mem := AMap.insert s.mem a ⟨s.made, v⟩, made := s.made + 1, owners := AMap.insert s.owners x o } y b ↔
      (y = x ∧ b = a) ∨ (y ≠ x ∧ s.Owns y b) := by
    intro y b
    simp only [RefState.Owns, AMap.get?_insert]
    by_cases e : x = y
    · subst e; simp [ho]; exact eq_comm
    · simp [e, Ne.symm e]
  have hne : ∀ y b, s.Owns y b → b ≠ a ∧ y ≠ x := by
    intro y b hy
    refine ⟨fun e => ?_, fun e => ?_⟩
    · obtain ⟨i, w, hw⟩ := inv.owned y b hy
      rw [RefState.Live, e, hm] at hw; cases hw
    · obtain ⟨o', h1, -⟩ := hy
      rw [e, hx] at h1; cases h1
  have hnl : ∀ i b w, s.Live i b w → b ≠ a := by
    intro i b w hw e
    rw [RefState.Live, e, hm] at hw; cases hw
  refine ⟨?_, ?_, ?_, ?_, ?_, ?_, ?_, ?_⟩
  · intro y b hy
    rcases (hown y b).1 hy with ⟨rfl, rfl⟩ | ⟨-, hy⟩
    · exact ⟨_, _, (hlive _ _ _).2 (.inl ⟨rfl, rfl, rfl⟩)⟩
    · obtain ⟨i, w, hw⟩ := inv.owned y b hy
      exact ⟨i, w, (hlive _ _ _).2 (.inr ⟨(hne _ _ hy).1, hw⟩)⟩
  · intro i b w hw
    rcases (hlive i b w).1 hw with ⟨rfl, rfl, rfl⟩ | ⟨-, hw⟩
    · exact ⟨x, (hown _ _).2 (.inl ⟨rfl, rfl⟩)⟩
    · obtain ⟨y, hy⟩ := inv.owner i b w hw
      exact ⟨y, (hown _ _).2 (.inr ⟨(hne _ _ hy).2, hy⟩)⟩
  · intro y z b hy hz
    rcases (hown y b).1 hy with ⟨rfl, rfl⟩ | ⟨-, hy'⟩ <;> rcases (hown z b).1 hz with ⟨rfl, e⟩ | ⟨-, hz'⟩
    · rfl
    · exact absurd rfl (hne _ _ hz').1
    · exact absurd e (hne _ _ hy').1
    · exact inv.alone _ _ _ hy' hz'
  · intro i b w hw
    rcases (hlive i b w).1 hw with ⟨rfl, -, -⟩ | ⟨-, hw⟩
    · exact h0
    · exact inv.null i b w hw
  · intro i b c w u hb hc
    rcases (hlive i b w).1 hb with ⟨hb1, hb2, -⟩ | ⟨-, hb'⟩ <;> rcases (hlive i c u).1 hc with ⟨hc1, hc2, -⟩ | ⟨-, hc'⟩
    · rw [hb1, hc1]
    · exact absurd (hb2 ▸ (inv.live _ _ _ hc').1) (Nat.lt_irrefl _)
    · exact absurd (hc2 ▸ (inv.live _ _ _ hb').1) (Nat.lt_irrefl _)
    · exact inv.once _ _ _ _ _ hb' hc'
  · intro i b w hw
    rcases (hlive i b w).1 hw with ⟨rfl, rfl, rfl⟩ | ⟨-, hw⟩
    · exact ⟨Nat.lt_succ_self _, fun hf => Nat.lt_irrefl _ (inv.freed.2 _ hf)⟩
    · exact ⟨Nat.lt_succ_of_lt (inv.live _ _ _ hw).1, (inv.live _ _ _ hw).2⟩
  · exact ⟨inv.freed.1, fun i hi => Nat.lt_succ_of_lt (inv.freed.2 i hi)⟩
  · intro i hi
    rcases Nat.lt_succ_iff_lt_or_eq.1 hi with hi | rfl
    · rcases inv.all i hi with h | ⟨b, w, hw⟩
      · exact .inl h
      · exact .inr ⟨b, w, (hlive _ _ _).2 (.inr ⟨hnl _ _ _ hw, hw⟩)⟩
    · exact .inr ⟨a, v, (hlive _ _ _).2 (.inl ⟨rfl, rfl, rfl⟩)⟩

/-- If the memory is as it was, it is enough that who owns what is as it was, up to the variables' names. -/
theorem OwnInv.owners {s : RefState} (inv : OwnInv s) {m : AMap String RefOwner} {l : AMap String (HeldRef × Option Nat)}
    (f : String → String) (hf : ∀ x y, f x = f y → x = y ∨ ∀ a, ¬ RefState.Owns { s with owners := m, refs := l } x a)
    (h1 : ∀ x a, RefState.Owns { s with owners := m, refs := l } x a → s.Owns (f x) a)
    (h2 : ∀ x a, s.Owns x a → ∃ y, RefState.Owns { s with owners := m, refs := l } y a) :
    OwnInv { s with owners := m, refs := l } where
  owned x a h := inv.owned _ _ (h1 x a h)
  owner i a v h := by
    obtain ⟨x, hx⟩ := inv.owner i a v h
    exact h2 x a hx
  alone x y a hx hy := by
    rcases hf x y (inv.alone _ _ _ (h1 _ _ hx) (h1 _ _ hy)) with h | h
    · exact h
    · exact absurd hx (h a)
  null := inv.null
  once := inv.once
  live := inv.live
  freed := inv.freed
  all := inv.all

theorem OwnInv.pass {s s' : RefState} (inv : OwnInv s) {x y : String} {o o' : RefOwner}
    (hy : AMap.get? s.owners y = some o') (ho : o.addr = o'.addr) (h : s.pass x y o = .ok s') : OwnInv s' := by
  obtain ⟨hx, rfl⟩ := pass_ok h
  have hxy : x ≠ y := fun e => by rw [e, hy] at hx; cases hx
  have hown : ∀ z a, RefState.Owns { s with owners := AMap.insert (AMap.erase s.owners y) x o } z a ↔
      (z = x ∧ s.Owns y a) ∨ (z ≠ x ∧ z ≠ y ∧ s.Owns z a) := by
    intro z a
    simp only [RefState.Owns, AMap.get?_insert, AMap.get?_erase]
    by_cases e : x = z
    · subst e; simp [hy, ho]
    · by_cases e' : y = z
      · subst e'; simp [e, Ne.symm e]
      · simp [e, e', Ne.symm e, Ne.symm e']
  refine OwnInv.owners (l := s.refs) inv (fun z => if z = x then y else if z = y then x else z) ?_ ?_ ?_
  · intro z w e
    by_cases h1 : z = x <;> by_cases h2 : w = x <;> by_cases h3 : z = y <;> by_cases h4 : w = y <;>
      simp_all
  · intro z a hz
    rcases (hown z a).1 hz with ⟨rfl, h⟩ | ⟨h1, h2, h⟩
    · rw [if_pos rfl]; assumption
    · rw [if_neg h1, if_neg h2]; assumption
  · intro z a hz
    by_cases e : z = y
    · subst e; exact ⟨x, (hown _ _).2 (.inl ⟨rfl, hz⟩)⟩
    · refine ⟨z, (hown _ _).2 (.inr ⟨fun e' => ?_, e, hz⟩)⟩
      obtain ⟨_, h1, -⟩ := hz
      rw [e', hx] at h1; cases h1

theorem OwnInv.write {s s' : RefState} (inv : OwnInv s) {a : Addr} {v : Nat} (h : s.write a v = .ok s') : OwnInv s' := by
  obtain ⟨i, w, hi, rfl⟩ := write_ok h
  have hlive : ∀ j b u, RefState.Live { s with mem := AMap.insert s.mem a ⟨i, v⟩ } j b u ↔
      (b = a ∧ j = i ∧ u = v) ∨ (b ≠ a ∧ s.Live j b u) := by
    intro j b u
    simp only [RefState.Live, AMap.get?_insert]
    by_cases e : a = b
    · subst e
      simp
      exact ⟨fun ⟨h1, h2⟩ => ⟨h1.symm, h2.symm⟩, fun ⟨h1, h2⟩ => ⟨h1.symm, h2.symm⟩⟩
    · simp [e, Ne.symm e]
  have hold : ∀ j b u, RefState.Live { s with mem := AMap.insert s.mem a ⟨i, v⟩ } j b u → ∃ u', s.Live j b u' := by
    intro j b u hu
    rcases (hlive j b u).1 hu with ⟨rfl, rfl, -⟩ | ⟨-, hu⟩
    · exact ⟨w, hi⟩
    · exact ⟨u, hu⟩
  have hnew : ∀ j b u, s.Live j b u → ∃ u', RefState.Live { s with mem := AMap.insert s.mem a ⟨i, v⟩ } j b u' := by
    intro j b u hu
    by_cases e : b = a
    · subst e
      have hu' := hu
      rw [RefState.Live] at hu' hi
      rw [hi] at hu'
      cases hu'
      exact ⟨v, (hlive _ _ _).2 (.inl ⟨rfl, rfl, rfl⟩)⟩
    · exact ⟨u, (hlive _ _ _).2 (.inr ⟨e, hu⟩)⟩
  refine ⟨?_, ?_, inv.alone, ?_, ?_, ?_, inv.freed, ?_⟩
  · intro x b hx
    obtain ⟨j, u, hu⟩ := inv.owned x b hx
    exact ⟨j, hnew j b u hu⟩
  · intro j b u hu
    obtain ⟨u', hu'⟩ := hold j b u hu
    exact inv.owner j b u' hu'
  · intro j b u hu
    obtain ⟨u', hu'⟩ := hold j b u hu
    exact inv.null j b u' hu'
  · intro j b c u u' hb hc
    obtain ⟨_, hb⟩ := hold j b u hb
    obtain ⟨_, hc⟩ := hold j c u' hc
    exact inv.once _ _ _ _ _ hb hc
  · intro j b u hu
    obtain ⟨u', hu'⟩ := hold j b u hu
    exact inv.live j b u' hu'
  · intro j hj
    rcases inv.all j hj with h | ⟨b, u, hu⟩
    · exact .inl h
    · exact .inr ⟨b, hnew j b u hu⟩

/-- What dropping a variable means. -/
theorem drop_ok {s s' : RefState} {x : String} (h : (RefOp.drop x).step s = .ok s') :
    ∃ o, AMap.get? s.owners x = some o ∧
      ((o.addr = none ∧ s' = { s with owners := AMap.erase s.owners x }) ∨
        ∃ a i v, o.addr = some a ∧ s.Live i a v ∧
          s' = { s with owners := AMap.erase s.owners x, mem := AMap.erase s.mem a, freed := i :: s.freed }) := by
  rw [RefOp.step] at h
  split at h
  · cases h
  · rename_i o ho
    refine ⟨o, ho, ?_⟩
    dsimp only at h
    split at h
    · rename_i ha
      cases h
      exact .inl ⟨ha, rfl⟩
    · rename_i a ha
      split at h
      · cases h
      · rename_i obj hobj
        cases h
        exact .inr ⟨a, obj.id, obj.val, ha, hobj, rfl⟩

theorem OwnInv.drop {s s' : RefState} (inv : OwnInv s) {x : String} (h : (RefOp.drop x).step s = .ok s') : OwnInv s' := by
  obtain ⟨o, ho, ⟨ha, rfl⟩ | ⟨a, i, v, ha, hi, rfl⟩⟩ := drop_ok h
  · refine OwnInv.owners (l := s.refs) inv id (fun _ _ e => .inl e) ?_ ?_
    · rintro z b ⟨o', h1, h2⟩
      rw [AMap.get?_erase] at h1
      split at h1
      · cases h1
      · exact ⟨o', h1, h2⟩
    · rintro z b ⟨o', h1, h2⟩
      refine ⟨z, o', ?_, h2⟩
      show AMap.get? (AMap.erase s.owners x) z = some o'
      rw [AMap.get?_erase, if_neg]
      · exact h1
      · intro e
        rw [← e, ho] at h1
        cases h1
        rw [ha] at h2; cases h2
  · have hlive : ∀ j b u, RefState.Live { s with owners := AMap.erase s.owners x, mem := AMap.erase s.mem a, freed := i :: s.freed } j b u ↔
        b ≠ a ∧ s.Live j b u := by
      intro j b u
      simp only [RefState.Live, AMap.get?_erase]
      by_cases e : a = b
      · subst e; simp
      · simp [e, Ne.symm e]
    have hown : ∀ z b, RefState.Owns { s with owners := AMap.erase s.owners x, mem := AMap.erase s.mem a, freed := i :: s.freed } z b ↔
        z ≠ x ∧ s.Owns z b := by
      intro z b
      simp only [RefState.Owns, AMap.get?_erase]
      by_cases e : x = z
      · subst e; simp
      · simp [e, Ne.symm e]
    have hxa : s.Owns x a := ⟨o, ho, ha⟩
    refine ⟨?_, ?_, ?_, ?_, ?_, ?_, ?_, ?_⟩
    · intro z b hz
      obtain ⟨h1, h2⟩ := (hown z b).1 hz
      obtain ⟨j, u, hu⟩ := inv.owned z b h2
      exact ⟨j, u, (hlive _ _ _).2 ⟨fun e => h1 (inv.alone _ _ _ (e ▸ h2) hxa), hu⟩⟩
    · intro j b u hu
      obtain ⟨h1, h2⟩ := (hlive j b u).1 hu
      obtain ⟨z, hz⟩ := inv.owner j b u h2
      refine ⟨z, (hown _ _).2 ⟨fun e => ?_, hz⟩⟩
      subst e
      obtain ⟨o', h3, h4⟩ := hz
      rw [ho] at h3; cases h3
      rw [ha] at h4; cases h4
      exact h1 rfl
    · intro y z b hy hz
      exact inv.alone _ _ _ ((hown _ _).1 hy).2 ((hown _ _).1 hz).2
    · intro j b u hu
      exact inv.null _ _ _ ((hlive _ _ _).1 hu).2
    · intro j b c u u' hb hc
      exact inv.once _ _ _ _ _ ((hlive _ _ _).1 hb).2 ((hlive _ _ _).1 hc).2
    · intro j b u hu
      obtain ⟨h1, h2⟩ := (hlive j b u).1 hu
      refine ⟨(inv.live _ _ _ h2).1, fun hm => ?_⟩
      rcases List.mem_cons.1 hm with rfl | hm
      · exact h1 (inv.once _ _ _ _ _ h2 hi)
      · exact (inv.live _ _ _ h2).2 hm
    · refine ⟨List.nodup_cons.2 ⟨(inv.live _ _ _ hi).2, inv.freed.1⟩, fun j hj => ?_⟩
      rcases List.mem_cons.1 hj with rfl | hj
      · exact (inv.live _ _ _ hi).1
      · exact inv.freed.2 j hj
    · intro j hj
      rcases inv.all j hj with h | ⟨b, u, hu⟩
      · exact .inl (List.mem_cons_of_mem _ h)
      · by_cases e : b = a
        · subst e
          rw [RefState.Live] at hu hi
          rw [hi] at hu
          cases hu
          exact .inl List.mem_cons_self
        · exact .inr ⟨b, u, (hlive _ _ _).2 ⟨e, hu⟩⟩

/-- A step, as what it does to the state. -/
inductive StepDid (s : RefState) : RefOp → RefState → Prop
  | made {op x a v o s'} (hop : (op = .newBox x a v ∧ o = .box a) ∨ (op = .newPin x a v ∧ o = .pin ⟨a, ⟨a⟩⟩) ∨
      (op = .newUnique x a v ∧ o = .unique (some a))) (h : s.alloc x a v o = .ok s') : StepDid s op s'
  | null {x} (hx : AMap.get? s.owners x = none) :
      StepDid s (.nullUnique x) { s with owners := AMap.insert s.owners x (.unique none) }
  | passed {op x y o o' s'} (hy : AMap.get? s.owners y = some o)
      (hop : (∃ a b, op = .pinBox x y b ∧ o = .box a ∧ o' = .pin ⟨a, ⟨a⟩⟩) ∨
        (∃ a, op = .pinUnique x y ∧ o = .unique a ∧ o' = .uniquePin ⟨a, ⟨a.getD 0⟩⟩) ∨
        (op = .move x y ∧ o' = o) ∨ ∃ p, op = .extract x y ∧ o = .pin p ∧ o' = .box p.contents)
      (h : s.pass x y o' = .ok s') : StepDid s op s'
  | dropped {x s'} (h : (RefOp.drop x).step s = .ok s') : StepDid s (.drop x) s'
  | taken {op y x o r} (hx : AMap.get? s.owners x = some o)
      (hop : (op = .refOf y x ∧ ((∃ p, o = .pin p ∧ r = .const ⟨p.contents⟩) ∨ (∃ a, o = .unique a ∧ r = .const ⟨a.getD 0⟩) ∨
          ∃ p a, o = .uniquePin p ∧ p.item = some a ∧ r = .const ⟨a⟩)) ∨
        (op = .mutOf y x ∧ ((∃ p, o = .pin p ∧ r = .mut ⟨p.contents⟩) ∨ ∃ p, o = .uniquePin p ∧ r = .mut p.ref)) ∨
        (op = .derefOf y x ∧ ((∃ p, o = .pin p ∧ r = .mut p.ref) ∨ ∃ p, o = .uniquePin p ∧ r = .mut p.ref))) :
      StepDid s op { s with refs := AMap.insert s.refs y (r, s.objAt o.addr) }
  | assigned {x y p r o} (hx : AMap.get? s.owners x = some (.pin p)) (hy : AMap.get? s.refs y = some (.mut r, o)) :
      StepDid s (.derefAssign x y) { s with owners := AMap.insert s.owners x (.pin ⟨p.contents, r⟩) }
  | cast {k z y r r' o} (hy : AMap.get? s.refs y = some (r, o)) (hr : r.cast k = some r') :
      StepDid s (.cast k z y) { s with refs := AMap.insert s.refs z (r', o) }
  | wrote {op a v s'} (hop : (∃ y r o, op = .cppWrite y v ∧ AMap.get? s.refs y = some (r, o) ∧ r.addr = a) ∨
      ∃ x p, op = .rustWrite x v ∧ AMap.get? s.owners x = some (.pin p) ∧ p.contents = a) (h : s.write a v = .ok s') :
      StepDid s op s'

theorem step_did {s s' : RefState} {op : RefOp} (h : op.step s = .ok s') : StepDid s op s' := by
  cases op with
  | newBox x a v => exact .made (.inl ⟨rfl, rfl⟩) h
  | newPin x a v => exact .made (.inr (.inl ⟨rfl, rfl⟩)) h
  | newUnique x a v => exact .made (.inr (.inr ⟨rfl, rfl⟩)) h
  | nullUnique x =>
    rw [RefOp.step] at h
    split at h
    · cases h
    · rename_i hc
      cases h
      exact .null (isSome_false hc)
  | pinBox x b pinned =>
    rw [RefOp.step] at h
    split at h
    · rename_i a ha
      refine .passed ha (.inl ⟨a, pinned, rfl, rfl, rfl⟩) ?_
      cases pinned <;> exact h
    · cases h
  | pinUnique x u =>
    rw [RefOp.step] at h
    split at h
    · rename_i a ha
      exact .passed ha (.inr (.inl ⟨a, rfl, rfl, rfl⟩)) h
    · cases h
  | move x y =>
    rw [RefOp.step] at h
    split at h
    · rename_i o ho
      exact .passed ho (.inr (.inr (.inl ⟨rfl, rfl⟩))) h
    · cases h
  | drop x => exact .dropped h
  | extract b x =>
    rw [RefOp.step] at h
    split at h
    · rename_i p hp
      exact .passed hp (.inr (.inr (.inr ⟨p, rfl, rfl, rfl⟩))) h
    · cases h
  | refOf y x =>
    rw [RefOp.step] at h
    split at h
    · rename_i p hp
      cases h
      exact .taken hp (.inl ⟨rfl, .inl ⟨p, rfl, rfl⟩⟩)
    · rename_i a ha
      cases h
      exact .taken ha (.inl ⟨rfl, .inr (.inl ⟨a, rfl, rfl⟩)⟩)
    · rename_i p hp
      split at h
      · rename_i r hr
        cases h
        obtain ⟨a, ha, rfl⟩ := Option.map_eq_some_iff.1 hr
        exact .taken hp (.inl ⟨rfl, .inr (.inr ⟨p, a, rfl, ha, rfl⟩)⟩)
      · cases h
    · cases h
  | mutOf y x =>
    rw [RefOp.step] at h
    split at h
    · rename_i p hp
      cases h
      exact .taken hp (.inr (.inl ⟨rfl, .inl ⟨p, rfl, rfl⟩⟩))
    · rename_i p hp
      cases h
      exact .taken hp (.inr (.inl ⟨rfl, .inr ⟨p, rfl, rfl⟩⟩))
    · cases h
  | derefOf y x =>
    rw [RefOp.step] at h
    split at h
    · rename_i p hp
      cases h
      exact .taken hp (.inr (.inr ⟨rfl, .inl ⟨p, rfl, rfl⟩⟩))
    · rename_i p hp
      cases h
      exact .taken hp (.inr (.inr ⟨rfl, .inr ⟨p, rfl, rfl⟩⟩))
    · cases h
  | derefAssign x y =>
    rw [RefOp.step] at h
    split at h
    · rename_i hx hy
      cases h
      exact .assigned hx hy
    · cases h
  | cast k z y =>
    rw [RefOp.step] at h
    split at h
    · rename_i r o hy
      split at h
      · rename_i r' hr
        cases h
        exact .cast hy hr
      · cases h
    · cases h
  | cppWrite y v =>
    rw [RefOp.step] at h
    split at h
    · rename_i r o hy
      exact .wrote (.inl ⟨y, r, o, rfl, hy, rfl⟩) h
    · cases h
  | rustWrite x v =>
    rw [RefOp.step] at h
    split at h
    · rename_i p hp
      exact .wrote (.inr ⟨x, p, rfl, hp, rfl⟩) h
    · cases h

/-- An object which is there after a step was there before, in the same place, or is new. -/
theorem step_live {s s' : RefState} {op : RefOp} (h : op.step s = .ok s') {i a v : Nat} (hl : s'.Live i a v) :
    s.Live i a v ∨ (i = s.made ∧ s'.made = s.made + 1) ∨ ∃ w, s.Live i a w ∧ s.write a v = .ok s' := by
  cases step_did h with
  | made hop h =>
    obtain ⟨-, -, -, rfl⟩ := alloc_ok h
    rw [RefState.Live, AMap.get?_insert] at hl
    split at hl
    · cases hl
      exact .inr (.inl ⟨rfl, rfl⟩)
    · exact .inl hl
  | null => exact .inl hl
  | passed _ _ h =>
    obtain ⟨-, rfl⟩ := pass_ok h
    exact .inl hl
  | dropped h =>
    obtain ⟨o, ho, ⟨-, rfl⟩ | ⟨b, j, u, -, -, rfl⟩⟩ := drop_ok h
    · exact .inl hl
    · rw [RefState.Live, AMap.get?_erase] at hl
      split at hl
      · cases hl
      · exact .inl hl
  | taken => exact .inl hl
  | assigned => exact .inl hl
  | cast => exact .inl hl
  | wrote _ h =>
    obtain ⟨j, w, hj, e⟩ := write_ok h
    have hl' := hl
    rw [e] at hl'
    rw [RefState.Live, AMap.get?_insert] at hl'
    split at hl'
    · rename_i e'
      cases hl'
      subst e'
      exact .inr (.inr ⟨w, hj, h⟩)
    · exact .inl hl'

/-- Objects are counted upwards. -/
theorem refs_step_made {s s' : RefState} {op : RefOp} (h : op.step s = .ok s') : s.made ≤ s'.made := by
  cases step_did h with
  | made hop h =>
    obtain ⟨-, -, -, rfl⟩ := alloc_ok h
    exact Nat.le_succ _
  | passed _ _ h =>
    obtain ⟨-, rfl⟩ := pass_ok h
    exact Nat.le_refl _
  | dropped h =>
    obtain ⟨o, ho, ⟨-, rfl⟩ | ⟨b, j, u, -, -, rfl⟩⟩ := drop_ok h <;> exact Nat.le_refl _
  | wrote _ h =>
    obtain ⟨j, w, hj, rfl⟩ := write_ok h
    exact Nat.le_refl _
  | _ => exact Nat.le_refl _

theorem step_live_old {s s' : RefState} {op : RefOp} (h : op.step s = .ok s') {i a v : Nat} (hl : s'.Live i a v)
    (hi : i < s.made) : ∃ w, s.Live i a w := by
  rcases step_live h hl with h | ⟨rfl, -⟩ | ⟨w, h, -⟩
  · exact ⟨v, h⟩
  · exact absurd hi (Nat.lt_irrefl _)
  · exact ⟨w, h⟩

theorem OwnInv.step {s s' : RefState} {op : RefOp} (inv : OwnInv s) (h : op.step s = .ok s') : OwnInv s' := by
  cases step_did h with
  | made hop h =>
    refine inv.alloc ?_ h
    rcases hop with ⟨-, rfl⟩ | ⟨-, rfl⟩ | ⟨-, rfl⟩ <;> rfl
  | @null x hx =>
    refine OwnInv.owners (l := s.refs) inv id (fun _ _ e => .inl e) ?_ ?_
    · rintro z a ⟨o, h1, h2⟩
      rw [AMap.get?_insert] at h1
      split at h1
      · cases h1; cases h2
      · exact ⟨o, h1, h2⟩
    · rintro z a ⟨o, h1, h2⟩
      refine ⟨z, o, ?_, h2⟩
      show AMap.get? (AMap.insert s.owners x _) z = some o
      rw [AMap.get?_insert, if_neg]
      · exact h1
      · intro e
        rw [← e, hx] at h1; cases h1
  | passed hy hop h =>
    refine inv.pass hy ?_ h
    rcases hop with ⟨a, _, -, rfl, rfl⟩ | ⟨a, -, rfl, rfl⟩ | ⟨-, rfl⟩ | ⟨p, -, rfl, rfl⟩ <;> rfl
  | dropped h => exact inv.drop h
  | taken => exact ⟨inv.owned, inv.owner, inv.alone, inv.null, inv.once, inv.live, inv.freed, inv.all⟩
  | @assigned x y p r o hx hy =>
    refine OwnInv.owners (l := s.refs) inv id (fun _ _ e => .inl e) ?_ ?_
    · rintro z a ⟨o', h1, h2⟩
      rw [AMap.get?_insert] at h1
      split at h1
      · rename_i e
        cases h1
        exact ⟨.pin p, e ▸ hx, h2⟩
      · exact ⟨o', h1, h2⟩
    · rintro z a ⟨o', h1, h2⟩
      by_cases e : x = z
      · subst e
        rw [hx] at h1
        cases h1
        exact ⟨x, .pin ⟨p.contents, r⟩, by rw [AMap.get?_insert, if_pos rfl], h2⟩
      · exact ⟨z, o', by rw [AMap.get?_insert, if_neg e]; exact h1, h2⟩
  | cast => exact ⟨inv.owned, inv.owner, inv.alone, inv.null, inv.once, inv.live, inv.freed, inv.all⟩
  | wrote _ h => exact inv.write h

/-- Turning references into one another keeps the address. -/
theorem cast_addr {k : RefCast} {r r' : HeldRef} (h : r.cast k = some r') : r'.addr = r.addr := by
  cases k <;> cases r <;> cases h <;> rfl

/-- What a reference taken from an owner refers to, if the pins are as they should be. -/
theorem taken_addr {s : RefState} (aim : AimInv s) {op : RefOp} {y x : String} {o : RefOwner} {r : HeldRef}
    (hx : AMap.get? s.owners x = some o)
    (hop : (op = .refOf y x ∧ ((∃ p, o = .pin p ∧ r = .const ⟨p.contents⟩) ∨ (∃ a, o = .unique a ∧ r = .const ⟨a.getD 0⟩) ∨
          ∃ p a, o = .uniquePin p ∧ p.item = some a ∧ r = .const ⟨a⟩)) ∨
        (op = .mutOf y x ∧ ((∃ p, o = .pin p ∧ r = .mut ⟨p.contents⟩) ∨ ∃ p, o = .uniquePin p ∧ r = .mut p.ref)) ∨
        (op = .derefOf y x ∧ ((∃ p, o = .pin p ∧ r = .mut p.ref) ∨ ∃ p, o = .uniquePin p ∧ r = .mut p.ref))) :
    r.addr = o.addr.getD 0 := by
  rcases hop with ⟨-, ⟨p, rfl, rfl⟩ | ⟨a, rfl, rfl⟩ | ⟨p, a, rfl, h, rfl⟩⟩ | ⟨-, ⟨p, rfl, rfl⟩ | ⟨p, rfl, rfl⟩⟩ |
    ⟨-, ⟨p, rfl, rfl⟩ | ⟨p, rfl, rfl⟩⟩
  · rfl
  · rfl
  · show a = p.item.getD 0
    rw [h]; rfl
  · rfl
  · exact aim.uniquePin x p hx
  · exact aim.pin x p hx
  · exact aim.uniquePin x p hx

theorem AimInv.step {s s' : RefState} {op : RefOp} (inv : OwnInv s) (aim : AimInv s) (hop : ∀ x y, op ≠ .derefAssign x y)
    (h : op.step s = .ok s') : AimInv s' := by
  have hold : ∀ y i a, s.Holds y i a → i < s'.made ∧ ∀ b v, s'.Live i b v → a = b := by
    intro y i a hy
    obtain ⟨h1, h2⟩ := aim.refs y i a hy
    refine ⟨Nat.lt_of_lt_of_le h1 (refs_step_made h), fun b v hb => ?_⟩
    obtain ⟨w, hw⟩ := step_live_old h hb h1
    exact h2 b w hw
  cases step_did h with
  | @made _ x a v o _ hop h =>
    obtain ⟨-, -, -, rfl⟩ := alloc_ok h
    refine ⟨?_, ?_, hold, aim.nulls⟩
    · intro z p hz
      rw [AMap.get?_insert] at hz
      split at hz
      · cases hz
        rcases hop with ⟨-, e⟩ | ⟨-, e⟩ | ⟨-, e⟩ <;> cases e
        rfl
      · exact aim.pin z p hz
    · intro z p hz
      rw [AMap.get?_insert] at hz
      split at hz
      · cases hz
        rcases hop with ⟨-, e⟩ | ⟨-, e⟩ | ⟨-, e⟩ <;> cases e
      · exact aim.uniquePin z p hz
  | null =>
    refine ⟨?_, ?_, hold, aim.nulls⟩
    · intro z p hz
      rw [AMap.get?_insert] at hz
      split at hz
      · cases hz
      · exact aim.pin z p hz
    · intro z p hz
      rw [AMap.get?_insert] at hz
      split at hz
      · cases hz
      · exact aim.uniquePin z p hz
  | @passed _ x y o o' _ hy hop h =>
    obtain ⟨-, rfl⟩ := pass_ok h
    refine ⟨?_, ?_, hold, aim.nulls⟩
    · intro z p hz
      rw [AMap.get?_insert] at hz
      split at hz
      · cases hz
        rcases hop with ⟨a, _, -, -, e⟩ | ⟨a, -, -, e⟩ | ⟨-, e⟩ | ⟨p, -, -, e⟩
        · cases e; rfl
        · cases e
        · exact aim.pin y p (e ▸ hy)
        · cases e
      · rw [AMap.get?_erase] at hz
        split at hz
        · cases hz
        · exact aim.pin z p hz
    · intro z p hz
      rw [AMap.get?_insert] at hz
      split at hz
      · cases hz
        rcases hop with ⟨a, _, -, -, e⟩ | ⟨a, -, -, e⟩ | ⟨-, e⟩ | ⟨p, -, -, e⟩
        · cases e
        · cases e; rfl
        · exact aim.uniquePin y p (e ▸ hy)
        · cases e
      · rw [AMap.get?_erase] at hz
        split at hz
        · cases hz
        · exact aim.uniquePin z p hz
  | dropped h =>
    obtain ⟨o, ho, ⟨-, rfl⟩ | ⟨b, j, u, -, -, rfl⟩⟩ := drop_ok h
    all_goals
      refine ⟨?_, ?_, hold, aim.nulls⟩
      · intro z p hz
        rw [AMap.get?_erase] at hz
        split at hz
        · cases hz
        · exact aim.pin z p hz
      · intro z p hz
        rw [AMap.get?_erase] at hz
        split at hz
        · cases hz
        · exact aim.uniquePin z p hz
  | @taken _ y x o r hx hop =>
    have ha := taken_addr aim hx hop
    refine ⟨aim.pin, aim.uniquePin, ?_, ?_⟩
    · rintro z i a ⟨r', h1, h2⟩
      rw [AMap.get?_insert] at h1
      split at h1
      · have h3 := congrArg Prod.fst (Option.some.inj h1)
        have h4 := congrArg Prod.snd (Option.some.inj h1)
        dsimp only at h3 h4
        subst h3
        obtain ⟨c, hc, h5⟩ := Option.bind_eq_some_iff.1 h4
        obtain ⟨⟨j, w⟩, hj, h6⟩ := Option.map_eq_some_iff.1 h5
        dsimp only at h6
        subst h6
        have hcl : s.Live j c w := hj
        refine ⟨(inv.live _ _ _ hcl).1, fun b v hb => ?_⟩
        rw [← h2, ha, hc]
        exact inv.once _ _ _ _ _ hcl hb
      · exact hold z i a ⟨r', h1, h2⟩
    · intro z r' h1
      rw [AMap.get?_insert] at h1
      split at h1
      · have h3 := congrArg Prod.fst (Option.some.inj h1)
        have h4 := congrArg Prod.snd (Option.some.inj h1)
        dsimp only at h3 h4
        subst h3
        rw [ha]
        cases hc : o.addr with
        | none => rfl
        | some c =>
          obtain ⟨j, w, hj⟩ := inv.owned x c ⟨o, hx, hc⟩
          rw [hc, RefState.objAt, Option.bind_some, show AMap.get? s.mem c = some ⟨j, w⟩ from hj] at h4
          cases h4
      · exact aim.nulls z r' h1
  | assigned => exact absurd rfl (hop _ _)
  | @cast k z y r r' o hy hr =>
    refine ⟨aim.pin, aim.uniquePin, ?_, ?_⟩
    · rintro w i a ⟨r'', h1, h2⟩
      rw [AMap.get?_insert] at h1
      split at h1
      · cases h1
        exact hold y i a ⟨r, hy, (cast_addr hr).symm.trans h2⟩
      · exact hold w i a ⟨r'', h1, h2⟩
    · intro w r'' h1
      rw [AMap.get?_insert] at h1
      split at h1
      · cases h1
        rw [cast_addr hr]
        exact aim.nulls y r hy
      · exact aim.nulls w r'' h1
  | wrote _ h =>
    obtain ⟨j, w, hj, rfl⟩ := write_ok h
    exact ⟨aim.pin, aim.uniquePin, hold, aim.nulls⟩

theorem OwnInv.run {s s' : RefState} {ops : List RefOp} (inv : OwnInv s) (h : runRefs ops s = .ok s') : OwnInv s' := by
  induction ops generalizing s with
  | nil => cases h; exact inv
  | cons op ops ih =>
    rw [runRefs] at h
    split at h
    · rename_i s1 h1
      exact ih (inv.step h1) h
    · rename_i r hr
      exact absurd h (hr _)

theorem AimInv.run {s s' : RefState} {ops : List RefOp} (inv : OwnInv s) (aim : AimInv s) (hno : NoDerefAssign ops)
    (h : runRefs ops s = .ok s') : AimInv s' := by
  induction ops generalizing s with
  | nil => cases h; exact aim
  | cons op ops ih =>
    rw [runRefs] at h
    split at h
    · rename_i s1 h1
      refine ih (inv.step h1) (aim.step inv (fun x y e => hno x y ?_) h1) (fun x y hm => hno x y (List.mem_cons_of_mem _ hm)) h
      rw [e]; exact List.mem_cons_self
    · rename_i r hr
      exact absurd h (hr _)

/-! ### What programs see -/

/-- **C72 (ownership).** Whatever the program does, every object it made is either there, owned by just one variable, or it
has been destroyed once and for all; and what a variable owns is there. -/
theorem objects_owned {ops : List RefOp} {s : RefState} (h : runRefs ops {} = .ok s) :
    (∀ i, i < s.made ↔ (i ∈ s.freed ∨ ∃ a v, s.Live i a v)) ∧ s.freed.Nodup ∧
    (∀ i a v, s.Live i a v → i ∉ s.freed ∧ a ≠ 0 ∧ ∃ x, s.Owns x a ∧ ∀ y, s.Owns y a → y = x) ∧
    ∀ x a, s.Owns x a → ∃ i v, s.Live i a v := by
  have inv := ownInv_start.run h
  refine ⟨fun i => ⟨inv.all i, ?_⟩, inv.freed.1, fun i a v hl => ?_, inv.owned⟩
  · rintro (hi | ⟨a, v, hl⟩)
    · exact inv.freed.2 i hi
    · exact (inv.live _ _ _ hl).1
  · obtain ⟨x, hx⟩ := inv.owner i a v hl
    exact ⟨(inv.live _ _ _ hl).2, inv.null _ _ _ hl, x, hx, fun y hy => inv.alone _ _ _ hy hx⟩

theorem run_live_old {s s' : RefState} {ops : List RefOp} (h : runRefs ops s = .ok s') {i a v : Nat} (hl : s'.Live i a v)
    (hi : i < s.made) : ∃ w, s.Live i a w := by
  induction ops generalizing s with
  | nil => cases h; exact ⟨v, hl⟩
  | cons op ops ih =>
    rw [runRefs] at h
    split at h
    · rename_i s1 h1
      obtain ⟨w, hw⟩ := ih h (Nat.lt_of_lt_of_le hi (refs_step_made h1))
      exact step_live_old h1 hw hi
    · rename_i r hr
      exact absurd h (hr _)

/-- **C72 (pinning).** An object stays where it is for as long as it is there: whatever is done to the variables which own it,
also when they are moved, pinned and unpinned, and to whatever else. -/
theorem address_fixed {before after : List RefOp} {s s' : RefState} (h : runRefs before {} = .ok s)
    (h' : runRefs after s = .ok s') {i a b v w : Nat} (hl : s.Live i a v) (hl' : s'.Live i b w) : a = b := by
  have inv := ownInv_start.run h
  obtain ⟨u, hu⟩ := run_live_old h' hl' (inv.live _ _ _ hl).1
  exact inv.once _ _ _ _ _ hl hu

/-- The operations which put something in a variable for references. -/
def RefOp.sets (y : String) : RefOp → Prop
  | .refOf z _ | .mutOf z _ | .derefOf z _ | .cast _ z _ => z = y
  | _ => False

theorem step_refs {s s' : RefState} {op : RefOp} {y : String} (hy : ¬ op.sets y) (h : op.step s = .ok s') :
    AMap.get? s'.refs y = AMap.get? s.refs y := by
  cases step_did h with
  | made _ h => obtain ⟨-, -, -, rfl⟩ := alloc_ok h; rfl
  | null => rfl
  | passed _ _ h => obtain ⟨-, rfl⟩ := pass_ok h; rfl
  | dropped h => obtain ⟨o, ho, ⟨-, rfl⟩ | ⟨b, j, u, -, -, rfl⟩⟩ := drop_ok h <;> rfl
  | taken hx hop =>
    show AMap.get? (AMap.insert s.refs _ _) y = _
    rw [AMap.get?_insert, if_neg]
    rintro rfl
    rcases hop with ⟨rfl, -⟩ | ⟨rfl, -⟩ | ⟨rfl, -⟩ <;> exact hy rfl
  | assigned => rfl
  | cast =>
    show AMap.get? (AMap.insert s.refs _ _) y = _
    rw [AMap.get?_insert, if_neg]
    rintro rfl
    exact hy rfl
  | wrote _ h => obtain ⟨j, w, hj, rfl⟩ := write_ok h; rfl

theorem run_refs {s s' : RefState} {ops : List RefOp} {y : String} (hy : ∀ op ∈ ops, ¬ op.sets y) (h : runRefs ops s = .ok s') :
    AMap.get? s'.refs y = AMap.get? s.refs y := by
  induction ops generalizing s with
  | nil => cases h; rfl
  | cons op ops ih =>
    rw [runRefs] at h
    split at h
    · rename_i s1 h1
      rw [ih (fun o ho => hy o (List.mem_cons_of_mem _ ho)) h, step_refs (hy op List.mem_cons_self) h1]
    · rename_i r hr
      exact absurd h (hr _)

/-- The ways to take a reference from an owner. -/
def RefOp.takes (op : RefOp) (y x : String) : Prop := op = .refOf y x ∨ op = .mutOf y x ∨ op = .derefOf y x

/-- Taking a reference by whichever function from a variable gives one to the object which the variable owns. -/
theorem taken_partial {ops : List RefOp} {s s' : RefState} (hno : NoDerefAssign ops) (h : runRefs ops {} = .ok s)
    {op : RefOp} {y x : String} (hop : op.takes y x) {a i v : Nat} (hx : s.Owns x a) (hl : s.Live i a v)
    (h' : op.step s = .ok s') : s'.Holds y i a := by
  have inv := ownInv_start.run h
  have aim := aimInv_start.run ownInv_start hno h
  cases step_did h' with
  | @taken _ y' x' o r hx' hop' =>
    have hr := taken_addr aim hx' hop'
    have : y' = y ∧ x' = x := by
      rcases hop with e | e | e <;> rcases hop' with ⟨e', -⟩ | ⟨e', -⟩ | ⟨e', -⟩ <;> rw [e] at e' <;> cases e' <;>
        exact ⟨rfl, rfl⟩
    obtain ⟨rfl, rfl⟩ := this
    obtain ⟨o', h1, h2⟩ := hx
    rw [hx'] at h1
    cases h1
    refine ⟨r, ?_, by rw [hr, h2]; rfl⟩
    show AMap.get? (AMap.insert s.refs _ _) y' = _
    rw [AMap.get?_insert, if_pos rfl, h2, RefState.objAt, Option.bind_some, show AMap.get? s.mem a = some ⟨i, v⟩ from hl]
    rfl
  | made hop' =>
    rcases hop with e | e | e <;> rcases hop' with ⟨e', -⟩ | ⟨e', -⟩ | ⟨e', -⟩ <;> rw [e] at e' <;> cases e'
  | passed _ hop' =>
    rcases hop with e | e | e <;> rcases hop' with ⟨_, _, e', -⟩ | ⟨_, e', -⟩ | ⟨e', -⟩ | ⟨_, e', -⟩ <;> rw [e] at e' <;> cases e'
  | wrote hop' =>
    rcases hop with e | e | e <;> rcases hop' with ⟨_, _, _, e', -⟩ | ⟨_, _, e', -⟩ <;> rw [e] at e' <;> cases e'
  | null => rcases hop with e | e | e <;> cases e
  | dropped => rcases hop with e | e | e <;> cases e
  | assigned => rcases hop with e | e | e <;> cases e
  | cast => rcases hop with e | e | e <;> cases e

/-- Turning one reference into another, by whichever function, gives one to the same object. -/
theorem cast_holds {s s' : RefState} {k : RefCast} {z y : String} {i a : Nat} (hy : s.Holds y i a)
    (h : (RefOp.cast k z y).step s = .ok s') : s'.Holds z i a := by
  generalize hop : RefOp.cast k z y = op at h
  cases step_did h with
  | @cast _ _ _ r r' o hr hc =>
    cases hop
    obtain ⟨r0, h1, h2⟩ := hy
    rw [hr] at h1
    cases h1
    exact ⟨r', by show AMap.get? (AMap.insert s.refs _ _) z = _; rw [AMap.get?_insert, if_pos rfl], (cast_addr hc).trans h2⟩
  | made hop' => rcases hop' with ⟨e', -⟩ | ⟨e', -⟩ | ⟨e', -⟩ <;> rw [← hop] at e' <;> cases e'
  | passed _ hop' => rcases hop' with ⟨_, _, e', -⟩ | ⟨_, e', -⟩ | ⟨e', -⟩ | ⟨_, e', -⟩ <;> rw [← hop] at e' <;> cases e'
  | wrote hop' => rcases hop' with ⟨_, _, _, e', -⟩ | ⟨_, _, e', -⟩ <;> rw [← hop] at e' <;> cases e'
  | taken _ hop' => rcases hop' with ⟨e', -⟩ | ⟨e', -⟩ | ⟨e', -⟩ <;> rw [← hop] at e' <;> cases e'
  | null => cases hop
  | dropped => cases hop
  | assigned => cases hop

/-- What a write through a reference does to all objects. -/
def WritesOnly (s s' : RefState) (i v : Nat) : Prop :=
  ∀ j b u, s'.Live j b u ↔ (j = i ∧ u = v ∧ ∃ w, s.Live i b w) ∨ (j ≠ i ∧ s.Live j b u)

theorem write_only {s : RefState} (inv : OwnInv s) {i a w : Nat} (hl : s.Live i a w) (v : Nat) :
    ∃ s', s.write a v = .ok s' ∧ WritesOnly s s' i v := by
  refine ⟨_, by rw [RefState.write, show AMap.get? s.mem a = some ⟨i, w⟩ from hl], fun j b u => ?_⟩
  rw [RefState.Live, AMap.get?_insert]
  constructor
  · intro h
    split at h
    · rename_i e
      subst e
      cases h
      exact .inl ⟨rfl, rfl, w, hl⟩
    · rename_i e
      refine .inr ⟨?_, h⟩
      rintro rfl
      exact e (inv.once _ _ _ _ _ hl h)
  · rintro (⟨rfl, rfl, w', hw'⟩ | ⟨hj, h⟩)
    · rw [if_pos (inv.once _ _ _ _ _ hl hw')]
    · rw [if_neg]
      · exact h
      · rintro rfl
        rw [RefState.Live] at h hl
        rw [hl] at h
        cases h
        exact hj rfl

/-- **C72 (references refer to what they were taken from), for programs which do not assign to what a pin's `deref_mut` gives.**
Take a reference from a variable which owns an object, in whichever way; then do anything at all, except to put something else
into the variable for the reference. If the object has not been destroyed, then C++ code which writes through the reference
writes to this object and to no other. -/
theorem reference_kept_partial {before after : List RefOp} {s s1 s2 : RefState} (hno : NoDerefAssign (before ++ after))
    (h : runRefs before {} = .ok s) {op : RefOp} {y x : String} (hop : op.takes y x) {a i v : Nat} (hx : s.Owns x a)
    (hl : s.Live i a v) (h1 : op.step s = .ok s1) (hy : ∀ o ∈ after, ¬ o.sets y) (h2 : runRefs after s1 = .ok s2)
    (hi : i ∉ s2.freed) (n : Nat) : ∃ s3, (RefOp.cppWrite y n).step s2 = .ok s3 ∧ WritesOnly s2 s3 i n := by
  have hb : NoDerefAssign before := fun p q hm => hno p q (List.mem_append_left _ hm)
  have inv := ownInv_start.run h
  have inv1 := inv.step h1
  have inv2 := inv1.run h2
  have hh := taken_partial hb h hop hx hl h1
  have haim1 : AimInv s1 := (aimInv_start.run ownInv_start hb h).step inv
    (fun p q e => by rcases hop with e' | e' | e' <;> rw [e] at e' <;> cases e') h1
  have haim2 := haim1.run inv1 (fun p q hm => hno p q (List.mem_append_right _ hm)) h2
  obtain ⟨r, hr, hra⟩ := hh
  have hr2 : s2.Holds y i a := ⟨r, by rw [run_refs hy h2]; exact hr, hra⟩
  obtain ⟨hm, hal⟩ := haim2.refs y i a hr2
  rcases inv2.all i hm with hf | ⟨b, w, hw⟩
  · exact absurd hf hi
  · have := hal b w hw
    subst this
    obtain ⟨s3, h3, h4⟩ := write_only inv2 hw n
    refine ⟨s3, ?_, h4⟩
    rw [RefOp.step, run_refs hy h2, hr]
    dsimp only
    rw [hra]
    exact h3

/-- **C72 (no aliasing), for the same programs.** Two references whose objects are there are equal just if they were taken from
the same object. -/
theorem references_alias_partial {ops : List RefOp} {s : RefState} (hno : NoDerefAssign ops) (h : runRefs ops {} = .ok s)
    {y z : String} {i j a b : Nat} (hy : s.Holds y i a) (hz : s.Holds z j b) (hi : i ∉ s.freed) (hj : j ∉ s.freed) :
    a = b ↔ i = j := by
  have inv := ownInv_start.run h
  have aim := aimInv_start.run ownInv_start hno h
  obtain ⟨hmi, hai⟩ := aim.refs _ _ _ hy
  obtain ⟨hmj, haj⟩ := aim.refs _ _ _ hz
  rcases inv.all i hmi with hf | ⟨c, v, hc⟩
  · exact absurd hf hi
  rcases inv.all j hmj with hf | ⟨d, w, hd⟩
  · exact absurd hf hj
  rw [hai _ _ hc, haj _ _ hd]
  constructor
  · rintro rfl
    rw [RefState.Live] at hc hd
    rw [hc] at hd
    cases hd
    rfl
  · rintro rfl
    exact inv.once _ _ _ _ _ hc hd

/-- **C72 (nothing else changes objects).** A step which changes what an object holds is a write, by C++ through a reference or by
Rust through the unsafe `as_mut`. -/
theorem only_writes_change {s s' : RefState} {op : RefOp} (inv : OwnInv s) (h : op.step s = .ok s') {i a b v w : Nat}
    (hl : s.Live i a v) (hl' : s'.Live i b w) (hne : v ≠ w) : (∃ y, op = .cppWrite y w) ∨ ∃ x, op = .rustWrite x w := by
  obtain ⟨u, hu⟩ := step_live_old h hl' (inv.live _ _ _ hl).1
  have hab := inv.once _ _ _ _ _ hl hu
  subst hab
  cases step_did h with
  | made hop h =>
    obtain ⟨-, hm, -, rfl⟩ := alloc_ok h
    rw [RefState.Live, AMap.get?_insert] at hl'
    rw [RefState.Live] at hl
    split at hl'
    · rename_i e; rw [e] at hm; rw [hm] at hl; cases hl
    · rw [hl] at hl'; cases hl'; exact absurd rfl hne
  | passed _ _ h =>
    obtain ⟨-, rfl⟩ := pass_ok h
    rw [RefState.Live] at hl hl'
    rw [hl] at hl'; cases hl'; exact absurd rfl hne
  | dropped h =>
    obtain ⟨o, ho, ⟨-, rfl⟩ | ⟨c, j, u, -, -, rfl⟩⟩ := drop_ok h
    · rw [RefState.Live] at hl hl'
      rw [hl] at hl'; cases hl'; exact absurd rfl hne
    · rw [RefState.Live, AMap.get?_erase] at hl'
      rw [RefState.Live] at hl
      split at hl'
      · cases hl'
      · rw [hl] at hl'; cases hl'; exact absurd rfl hne
  | @wrote _ c n _ hop h =>
    obtain ⟨j, u, hj, rfl⟩ := write_ok h
    rw [RefState.Live, AMap.get?_insert] at hl'
    rw [RefState.Live] at hl
    split at hl'
    · cases hl'
      rcases hop with ⟨y, _, _, e, -⟩ | ⟨x, _, e, -⟩
      · exact .inl ⟨y, e⟩
      · exact .inr ⟨x, e⟩
    · rw [hl] at hl'; cases hl'; exact absurd rfl hne
  | _ =>
    rw [RefState.Live] at hl hl'
    rw [hl] at hl'; cases hl'; exact absurd rfl hne

/-- **C72 (objects go only when their owner is dropped).** -/
theorem only_drop_destroys {s s' : RefState} {op : RefOp} (h : op.step s = .ok s') {i a v : Nat} (hl : s.Live i a v)
    (hg : ∀ b w, ¬ s'.Live i b w) : ∃ x, op = .drop x ∧ s.Owns x a := by
  cases step_did h with
  | made hop h =>
    obtain ⟨-, hm, -, rfl⟩ := alloc_ok h
    refine absurd ?_ (hg a v)
    rw [RefState.Live, AMap.get?_insert, if_neg]
    · exact hl
    · rintro rfl
      rw [RefState.Live, hm] at hl; cases hl
  | passed _ _ h =>
    obtain ⟨-, rfl⟩ := pass_ok h
    exact absurd hl (hg a v)
  | dropped h =>
    obtain ⟨o, ho, ⟨-, rfl⟩ | ⟨c, j, u, hc, -, rfl⟩⟩ := drop_ok h
    · exact absurd hl (hg a v)
    · refine ⟨_, rfl, o, ho, ?_⟩
      by_cases e : c = a
      · rw [hc, e]
      · refine absurd ?_ (hg a v)
        rw [RefState.Live, AMap.get?_erase, if_neg e]
        exact hl
  | @wrote _ c n _ hop h =>
    obtain ⟨j, u, hj, rfl⟩ := write_ok h
    by_cases e : c = a
    · subst e
      rw [RefState.Live] at hl hj
      rw [hj] at hl
      cases hl
      exact absurd (by rw [RefState.Live, AMap.get?_insert, if_pos rfl]) (hg c n)
    · refine absurd ?_ (hg a v)
      rw [RefState.Live, AMap.get?_insert, if_neg e]
      exact hl
  | _ => exact absurd hl (hg a v)

/-- **C72 (panics).** The one thing which panics is `as_cpp_ref` of a pin made of a null `UniquePtr`. -/
theorem refs_panic_iff {s : RefState} {op : RefOp} :
    op.step s = .panic ↔ ∃ y x p, op = .refOf y x ∧ AMap.get? s.owners x = some (.uniquePin p) ∧ p.item = none := by
  constructor
  · intro h
    cases op with
    | refOf y x =>
      rw [RefOp.step] at h
      split at h
      · cases h
      · cases h
      · rename_i p hp
        split at h
        · cases h
        · rename_i hn
          exact ⟨y, x, p, rfl, hp, Option.map_eq_none_iff.1 hn⟩
      · cases h
    | _ =>
      simp only [RefOp.step, RefState.alloc, RefState.pass, RefState.hold, RefState.write] at h
      repeat' (first | (cases h; done) | split at h)
  · rintro ⟨y, x, p, rfl, hx, hp⟩
    rw [RefOp.step, hx]
    dsimp only
    rw [CppUniquePtrPin.asCppRef, CppUniquePtrPin.asPtr, hp]
    rfl

/-- **C72 (what is undefined), for the same programs.** Objects are not destroyed twice, and Rust's writes through pins are sound.
What can go wrong is a write by C++ through a reference which is null or whose object has been destroyed. -/
theorem undefined_partial {ops : List RefOp} {s : RefState} (hno : NoDerefAssign ops) (h : runRefs ops {} = .ok s)
    {op : RefOp} (hu : op.step s = .undefined) :
    ∃ y v r o, op = .cppWrite y v ∧ AMap.get? s.refs y = some (r, o) ∧
      ((o = none ∧ r.addr = 0) ∨ ∃ i, o = some i ∧ i ∈ s.freed) := by
  have inv := ownInv_start.run h
  have aim := aimInv_start.run ownInv_start hno h
  have hw : ∀ a v, s.write a v = .undefined → ∀ i w, ¬ s.Live i a w := by
    intro a v hwr i w hl
    rw [RefState.write, show AMap.get? s.mem a = some ⟨i, w⟩ from hl] at hwr
    cases hwr
  cases op with
  | cppWrite y v =>
    rw [RefOp.step] at hu
    split at hu
    · rename_i r o hy
      refine ⟨y, v, r, o, rfl, hy, ?_⟩
      cases o with
      | none => exact .inl ⟨rfl, aim.nulls y r hy⟩
      | some i =>
        obtain ⟨hm, ha⟩ := aim.refs y i r.addr ⟨r, hy, rfl⟩
        rcases inv.all i hm with hf | ⟨b, w, hb⟩
        · exact .inr ⟨i, rfl, hf⟩
        · exact absurd (ha b w hb ▸ hb) (hw _ _ hu i w)
    · cases hu
  | rustWrite x v =>
    rw [RefOp.step] at hu
    split at hu
    · rename_i p hp
      obtain ⟨i, w, hl⟩ := inv.owned x p.contents ⟨_, hp, rfl⟩
      exact absurd hl (hw _ _ hu i w)
    · cases hu
  | drop x =>
    rw [RefOp.step] at hu
    split at hu
    · cases hu
    · rename_i o ho
      dsimp only at hu
      split at hu
      · cases hu
      · rename_i a ha
        split at hu
        · rename_i hn
          obtain ⟨i, w, hl⟩ := inv.owned x a ⟨o, ho, ha⟩
          rw [RefState.Live, hn] at hl
          cases hl
        · cases hu
  | _ =>
    simp only [RefOp.step, RefState.alloc, RefState.pass, RefState.hold] at hu
    repeat' (first | (cases hu; done) | split at hu)

/-- **C72 (the two ways to ask agree), for the same programs.** `as_cpp_ref`, `as_cpp_mut_ref` and `deref` of one variable give the
same address whenever they give any. -/
theorem ways_agree_partial {ops : List RefOp} {s s1 s2 : RefState} (hno : NoDerefAssign ops) (h : runRefs ops {} = .ok s)
    {op1 op2 : RefOp} {y z x : String} (h1 : op1.takes y x) (h2 : op2.takes z x) (hs1 : op1.step s = .ok s1)
    (hs2 : op2.step s = .ok s2) :
    ∃ r1 r2 : HeldRef, (AMap.get? s1.refs y).map (·.1) = some r1 ∧ (AMap.get? s2.refs z).map (·.1) = some r2 ∧ r1.addr = r2.addr := by
  have aim := aimInv_start.run ownInv_start hno h
  have key : ∀ {op : RefOp} {w : String} {t : RefState}, op.takes w x → op.step s = .ok t →
      ∃ r : HeldRef, (AMap.get? t.refs w).map (·.1) = some r ∧ ∃ o, AMap.get? s.owners x = some o ∧ r.addr = o.addr.getD 0 := by
    intro op w t hop hst
    cases step_did hst with
    | @taken _ y' x' o r hx' hop' =>
      have : y' = w ∧ x' = x := by
        rcases hop with e | e | e <;> rcases hop' with ⟨e', -⟩ | ⟨e', -⟩ | ⟨e', -⟩ <;> rw [e] at e' <;> cases e' <;>
          exact ⟨rfl, rfl⟩
      obtain ⟨rfl, rfl⟩ := this
      refine ⟨r, ?_, o, hx', taken_addr aim hx' hop'⟩
      show (AMap.get? (AMap.insert s.refs _ _) y').map _ = _
      rw [AMap.get?_insert, if_pos rfl]
      rfl
    | made hop' =>
      rcases hop with e | e | e <;> rcases hop' with ⟨e', -⟩ | ⟨e', -⟩ | ⟨e', -⟩ <;> rw [e] at e' <;> cases e'
    | passed _ hop' =>
      rcases hop with e | e | e <;> rcases hop' with ⟨_, _, e', -⟩ | ⟨_, e', -⟩ | ⟨e', -⟩ | ⟨_, e', -⟩ <;> rw [e] at e' <;> cases e'
    | wrote hop' =>
      rcases hop with e | e | e <;> rcases hop' with ⟨_, _, _, e', -⟩ | ⟨_, _, e', -⟩ <;> rw [e] at e' <;> cases e'
    | null => rcases hop with e | e | e <;> cases e
    | dropped => rcases hop with e | e | e <;> cases e
    | assigned => rcases hop with e | e | e <;> cases e
    | cast => rcases hop with e | e | e <;> cases e
  obtain ⟨r1, hr1, o1, ho1, ha1⟩ := key h1 hs1
  obtain ⟨r2, hr2, o2, ho2, ha2⟩ := key h2 hs2
  rw [ho1] at ho2
  cases ho2
  exact ⟨r1, r2, hr1, hr2, ha1.trans ha2.symm⟩

/-! ### Cases -/

/-- Two objects; one is pinned, a reference is taken, the pin is moved and opened, the box pinned again. -/
def exRefs : List RefOp :=
  [.newBox "b" 100 7, .newPin "q" 200 8, .pinBox "p" "b" false, .refOf "r" "p", .mutOf "m" "q", .move "p2" "p", .cppWrite "m" 9,
    .extract "b2" "p2", .pinBox "p3" "b2" true, .cast .constCast "c" "r"]

/-- The objects of a state, for reading. -/
def RefRun.values : RefRun → Option (List (Nat × Nat))
  | .ok s => some (s.mem.map fun e => (e.2.id, e.2.val))
  | _ => none

example : (runRefs (exRefs ++ [.cppWrite "c" 5]) {}).values = some [(0, 5), (1, 9)] := by decide +kernel

/-- The hypotheses of `reference_kept_partial` are met: the reference is taken half way through. -/
example : ∃ s s1 s2, runRefs (exRefs.take 3) {} = .ok s ∧ (RefOp.refOf "r" "p").step s = .ok s1 ∧
    s.Owns "p" 100 ∧ s.Live 0 100 7 ∧ runRefs (exRefs.drop 4) s1 = .ok s2 ∧ 0 ∉ s2.freed :=
  ⟨_, _, _, rfl, rfl, ⟨_, rfl, rfl⟩, rfl, rfl, by decide +kernel⟩

example : NoDerefAssign exRefs := by
  intro x y h
  simp [exRefs] at h

/-- A null `UniquePtr`, dropped objects, and a place which is used again. -/
example : (runRefs [.nullUnique "u", .move "w" "u", .newUnique "v" 64 1, .refOf "r" "v", .drop "v", .drop "w", .newPin "p" 64 2,
    .rustWrite "p" 3] {}).values = some [(1, 3)] := by decide +kernel

/-! ### Where the code disagrees -/

/-- **C72 fails:** `*p = q` through the safe `deref_mut` of a pin makes the methods called on the pin go to another pin's object,
while `as_cpp_ref` of it still refers to its own. -/
theorem deref_assign_false : ∃ s s', runRefs [.newPin "p" 100 7, .newPin "q" 200 8, .derefOf "m" "q", .derefAssign "p" "m",
      .derefOf "d" "p", .refOf "r" "p"] {} = .ok s ∧ s.Owns "p" 100 ∧ s.Live 0 100 7 ∧ s.Live 1 200 8 ∧
    s.Holds "d" 0 200 ∧ s.Holds "r" 0 100 ∧ (RefOp.cppWrite "d" 5).step s = .ok s' ∧ s'.Live 0 100 7 ∧ s'.Live 1 200 5 :=
  ⟨_, _, rfl, ⟨_, rfl, rfl⟩, rfl, rfl, ⟨_, rfl, rfl⟩, ⟨_, rfl, rfl⟩, rfl, rfl, rfl⟩

/-- Once the other pin is gone, calling a method on the first, whose object is there, is undefined. -/
theorem deref_assign_undefined_false : ∃ s, runRefs [.newPin "p" 100 7, .newPin "q" 200 8, .derefOf "m" "q", .derefAssign "p" "m",
      .drop "q", .derefOf "d" "p"] {} = .ok s ∧ s.Owns "p" 100 ∧ s.Live 0 100 7 ∧ (RefOp.cppWrite "d" 5).step s = .undefined :=
  ⟨_, rfl, ⟨_, rfl, rfl⟩, rfl, rfl⟩

/-- **C72 fails:** of a pin of a null `UniquePtr`, `as_cpp_ref` panics, but `as_cpp_mut_ref` and `deref` give a null reference. -/
theorem null_pin_false : ∃ s s' s'', runRefs [.nullUnique "u", .pinUnique "p" "u"] {} = .ok s ∧
    (RefOp.refOf "r" "p").step s = .panic ∧ (RefOp.mutOf "m" "p").step s = .ok s' ∧
    (RefOp.cppWrite "m" 5).step s' = .undefined ∧ (RefOp.derefOf "d" "p").step s = .ok s'' ∧
    (RefOp.cppWrite "d" 5).step s'' = .undefined :=
  ⟨_, _, _, rfl, rfl, rfl, rfl, rfl, rfl⟩

/-- **C72 fails:** a reference may outlive the pin. A write through it is then undefined; or, if there is something else in the
place by then, it goes to that. -/
theorem outlives_pin_false : ∃ s s' s'', runRefs [.newPin "p" 100 7, .mutOf "m" "p", .drop "p"] {} = .ok s ∧
    (RefOp.cppWrite "m" 5).step s = .undefined ∧ (RefOp.newPin "q" 100 8).step s = .ok s' ∧ s'.Live 1 100 8 ∧
    s'.Holds "m" 0 100 ∧ (RefOp.cppWrite "m" 5).step s' = .ok s'' ∧ s''.Live 1 100 5 :=
  ⟨_, _, _, rfl, rfl, rfl, rfl, ⟨_, rfl, rfl⟩, rfl, rfl⟩

end Verif
