import Verif.SubclassPeers
import Verif.Util
import Mathlib.Data.List.Nodup

/-!
# Who frees the two halves of a Rust subclass (C30)
-/

set_option autoImplicit false

namespace Verif

/-! ## Rust-owned and self-owned -/

/-- What always holds when the Rust object owns its peer. `free`: the peer does not own the Rust object, or no longer. -/
structure OwningInv (free : Bool) (s : PeerState) : Prop where
  hold : s.hold = .owned
  owner : s.cppOwner = false
  dangling : s.dangling = 0
  corrupt : s.corrupt = false
  alive : s.peerAlive = decide (s.strong ≠ 0)
  obs : s.obs = if free then .unowned else .owned
  count : s.strong = s.rcs + s.guards.length + (if free then 0 else 1)
  obj : s.objDestroyed = if s.strong = 0 then 1 else 0
  peer : s.peerDestroyed = if s.strong = 0 then 1 else 0

/-- Dropping an `Rc` which is no longer counted among the others. -/
theorem OwningInv.dropRc {free : Bool} {s : PeerState} (hold : s.hold = .owned) (owner : s.cppOwner = false) (dangling : s.dangling = 0)
    (corrupt : s.corrupt = false) (alive : s.peerAlive = decide (s.strong ≠ 0)) (obs : s.obs = if free then .unowned else .owned)
    (count : s.strong = s.rcs + s.guards.length + (if free then 0 else 1) + 1) (obj : s.objDestroyed = if s.strong = 0 then 1 else 0)
    (peer : s.peerDestroyed = if s.strong = 0 then 1 else 0) : OwningInv free s.dropRc := by
  obtain ⟨strong, od, pd, pa, ob, ho, rcs, guards, co, d, c⟩ := s
  dsimp only at *
  have alive' : pa = decide (strong ≠ 0) := alive
  have obj' : od = if strong = 0 then 1 else 0 := obj
  have peer' : pd = if strong = 0 then 1 else 0 := peer
  clear alive obj peer
  subst hold owner dangling corrupt alive' obs obj' peer'
  rcases strong with _ | _ | k
  · omega
  · cases free with
    | false => simp at count
    | true =>
      simp only [if_true] at count
      constructor <;> first | rfl | (simp only [PeerState.dropRc, if_true]; omega)
  · constructor <;> first | rfl | (simp only [PeerState.dropRc]; omega)

theorem getElem?_erase_length {α : Type} {l : List α} {i : Nat} {a : α} (h : l[i]? = some a) : (l.eraseIdx i).length + 1 = l.length := by
  have hi : i < l.length := by
    by_contra hn
    rw [List.getElem?_eq_none (by omega)] at h
    cases h
  rw [List.length_eraseIdx_of_lt hi]
  omega

theorem OwningInv.step {free : Bool} {s s' : PeerState} {op : PeerOp} (inv : OwningInv free s) (h : op.step s = .done s') :
    OwningInv (free || decide (op = .deleteSelf)) s' := by
  cases op with
  | clone =>
    simp only [PeerOp.step] at h
    split at h
    · cases h
    · cases h
      have h1 := inv.count
      have h2 := inv.alive
      have h3 := inv.obj
      have h4 := inv.peer
      have hs : s.strong ≠ 0 := by omega
      rw [decide_eq_false (by simp), Bool.or_false]
      refine ⟨inv.hold, inv.owner, inv.dangling, inv.corrupt, ?_, inv.obs, ?_, ?_, ?_⟩
      · show s.peerAlive = _
        rw [h2]; simp [hs]
      · show s.strong + 1 = s.rcs + 1 + s.guards.length + _
        omega
      · show s.objDestroyed = _
        rw [h3]; simp [hs]
      · show s.peerDestroyed = _
        rw [h4]; simp [hs]
  | dropRc =>
    simp only [PeerOp.step] at h
    split at h
    · cases h
    · cases h
      rw [decide_eq_false (by simp), Bool.or_false]
      refine OwningInv.dropRc inv.hold inv.owner inv.dangling inv.corrupt inv.alive inv.obs ?_ inv.obj inv.peer
      have := inv.count
      show s.strong = s.rcs - 1 + s.guards.length + _ + 1
      omega
  | borrow m =>
    simp only [PeerOp.step] at h
    split at h
    · cases h
    split at h
    · cases h
      rw [decide_eq_false (by simp), Bool.or_false]
      refine ⟨inv.hold, inv.owner, inv.dangling, inv.corrupt, inv.alive, inv.obs, ?_, inv.obj, inv.peer⟩
      have := inv.count
      show s.strong = s.rcs - 1 + (s.guards.length + 1) + _
      omega
    · cases h
  | call m =>
    simp only [PeerOp.step] at h
    split at h
    · rename_i ha
      have hs : s.strong ≠ 0 := by rw [inv.alive] at ha; simpa using ha
      have hg : s.getObs = some { s with strong := s.strong + 1 } := by
        unfold PeerState.getObs
        cases s.obs with
        | owned => rfl
        | unowned => exact if_neg hs
      rw [hg] at h
      dsimp only at h
      split at h
      · cases h
        rw [decide_eq_false (by simp), Bool.or_false]
        have h1 := inv.count
        have h2 := inv.alive
        have h3 := inv.obj
        have h4 := inv.peer
        refine ⟨inv.hold, inv.owner, inv.dangling, inv.corrupt, ?_, inv.obs, ?_, ?_, ?_⟩
        · show s.peerAlive = _
          rw [h2]; simp [hs]
        · show s.strong + 1 = s.rcs + (s.guards.length + 1) + _
          omega
        · show s.objDestroyed = _
          rw [h3]; simp [hs]
        · show s.peerDestroyed = _
          rw [h4]; simp [hs]
      · cases h
    · cases h
  | release i =>
    simp only [PeerOp.step] at h
    split at h
    · cases h
    · rename_i g hg
      have hlen := getElem?_erase_length hg
      have h1 := inv.count
      rw [decide_eq_false (by simp), Bool.or_false]
      split at h
      · cases h
        refine OwningInv.dropRc inv.hold inv.owner inv.dangling inv.corrupt inv.alive inv.obs ?_ inv.obj inv.peer
        show s.strong = s.rcs + (s.guards.eraseIdx i).length + _ + 1
        omega
      · cases h
        refine ⟨inv.hold, inv.owner, inv.dangling, inv.corrupt, inv.alive, inv.obs, ?_, inv.obj, inv.peer⟩
        show s.strong = s.rcs + 1 + (s.guards.eraseIdx i).length + _
        omega
  | deleteSelf =>
    simp only [PeerOp.step] at h
    split at h
    · cases h
    · rename_i hgu
      have hlen : s.guards.length ≠ 0 := fun h0 => hgu (by rw [List.isEmpty_iff]; exact List.length_eq_zero_iff.mp h0)
      have h1 := inv.count
      have hs : s.strong ≠ 0 := by omega
      have ha : s.peerAlive = true := by rw [inv.alive]; simp [hs]
      rw [inv.hold] at h
      dsimp only at h
      rw [if_pos ha] at h
      cases h
      rw [decide_eq_true rfl, Bool.or_true]
      cases free with
      | true =>
        have ho : s.obs = .unowned := inv.obs
        have : s.relinquish = s := by
          obtain ⟨strong, od, pd, pa, ob, ho, rcs, guards, co, d, c⟩ := s
          dsimp only at *
          subst ho ha
          rfl
        rw [this]
        exact inv
      | false =>
        have ho : s.obs = .owned := inv.obs
        have key : OwningInv true ({ s with obs := .unowned } : PeerState).dropRc :=
          OwningInv.dropRc inv.hold inv.owner inv.dangling inv.corrupt inv.alive rfl h1 inv.obj inv.peer
        have hk : (({ s with obs := .unowned } : PeerState).dropRc).strong ≠ 0 := by
          have hk := key.count
          have hg : (({ s with obs := .unowned } : PeerState).dropRc).guards = s.guards := by
            unfold PeerState.dropRc
            dsimp only
            split
            · rfl
            · split <;> rfl
            · rfl
          rw [hg] at hk
          omega
        have ha' := key.alive
        rw [decide_eq_true hk] at ha'
        have : s.relinquish = ({ s with obs := .unowned } : PeerState).dropRc := by
          unfold PeerState.relinquish
          simp only [ho]
          rw [if_pos ha']
        rw [this]
        exact key
  | usePeer =>
    simp only [PeerOp.step] at h
    split at h
    · cases h
    · rename_i hgu
      have hlen : s.guards.length ≠ 0 := fun h0 => hgu (by rw [List.isEmpty_iff]; exact List.length_eq_zero_iff.mp h0)
      have h1 := inv.count
      have hs : s.strong ≠ 0 := by omega
      have ha : s.peerAlive = true := by rw [inv.alive]; simp [hs]
      rw [inv.hold] at h
      dsimp only at h
      rw [if_pos ha] at h
      cases h
      rw [decide_eq_false (by simp), Bool.or_false]
      exact inv
  | cppDelete =>
    simp only [PeerOp.step] at h
    rw [inv.owner] at h
    cases h

theorem OwningInv.run {free : Bool} {s s' : PeerState} {ops : List PeerOp} (inv : OwningInv free s) (h : runPeers ops s = some s') :
    OwningInv (free || decide (PeerOp.deleteSelf ∈ ops)) s' := by
  induction ops generalizing free s with
  | nil => cases h; simpa using inv
  | cons op l ih =>
    rw [runPeers] at h
    split at h
    · rename_i s1 h1
      have := ih (inv.step h1) h
      have he : (free || decide (PeerOp.deleteSelf ∈ op :: l)) = ((free || decide (op = .deleteSelf)) || decide (PeerOp.deleteSelf ∈ l)) := by
        rw [Bool.or_assoc]
        congr 1
        rw [Bool.eq_iff_iff]
        simp only [Bool.or_eq_true, decide_eq_true_eq, List.mem_cons]
        exact or_congr eq_comm Iff.rfl
      rw [he]
      exact this
    · cases h
    · cases h

/-- **Rust-owned**: whatever happens, and however deeply calls are nested, both halves are there as long as somebody has an `Rc` or a reference to the Rust object; once nobody has,
each has been destroyed, and only once. A peer is never used which has been destroyed. -/
theorem rust_owned {ops : List PeerOp} {s : PeerState} (h : runPeers ops newRustOwned = some s) :
    s.objDestroyed = (if s.rcs = 0 ∧ s.guards = [] then 1 else 0) ∧ s.peerDestroyed = s.objDestroyed ∧ s.peerAlive = decide (s.peerDestroyed = 0) ∧
      s.dangling = 0 ∧ s.corrupt = false := by
  have inv := OwningInv.run (free := true) (s := newRustOwned) (by constructor <;> rfl) h
  rw [Bool.true_or] at inv
  have hc := inv.count
  simp only [if_true, Nat.add_zero] at hc
  have he : (s.rcs = 0 ∧ s.guards = []) ↔ s.strong = 0 := by
    rw [← List.length_eq_zero_iff]
    omega
  refine ⟨?_, inv.peer.trans inv.obj.symm, ?_, inv.dangling, inv.corrupt⟩
  · rw [inv.obj]
    simp only [he]
  · rw [inv.alive, inv.peer]
    by_cases h0 : s.strong = 0 <;> simp [h0]

/-- **Self-owned**: both halves are there until `delete_self` has been called and nobody has an `Rc` or a reference to the Rust object; then each has been destroyed, and only once.
A peer is never used which has been destroyed. -/
theorem self_owned {ops : List PeerOp} {s : PeerState} (h : runPeers ops newSelfOwned = some s) :
    s.objDestroyed = (if PeerOp.deleteSelf ∈ ops ∧ s.rcs = 0 ∧ s.guards = [] then 1 else 0) ∧ s.peerDestroyed = s.objDestroyed ∧
      s.peerAlive = decide (s.peerDestroyed = 0) ∧ s.dangling = 0 ∧ s.corrupt = false := by
  have inv := OwningInv.run (free := false) (s := newSelfOwned) (by constructor <;> rfl) h
  rw [Bool.false_or] at inv
  have hc := inv.count
  have he : (PeerOp.deleteSelf ∈ ops ∧ s.rcs = 0 ∧ s.guards = []) ↔ s.strong = 0 := by
    rw [← List.length_eq_zero_iff]
    by_cases hd : PeerOp.deleteSelf ∈ ops
    · rw [decide_eq_true hd] at hc
      simp only [if_true, Nat.add_zero] at hc
      simp only [hd, true_and]
      omega
    · rw [decide_eq_false hd] at hc
      simp only [Bool.false_eq_true, if_false] at hc
      simp only [hd, false_and, false_iff]
      omega
  refine ⟨?_, inv.peer.trans inv.obj.symm, ?_, inv.dangling, inv.corrupt⟩
  · rw [inv.obj]
    simp only [he]
  · rw [inv.alive, inv.peer]
    by_cases h0 : s.strong = 0 <;> simp [h0]

/-! ## C++-owned -/

/-- The operation uses the peer by what the Rust object holds. -/
def PeerOp.usesPeer : PeerOp → Bool
  | .deleteSelf => true
  | .usePeer => true
  | _ => false

/-- What always holds when C++ owns the peer. `gone`: the peer has been destroyed. `free`: it has been told not to own the Rust object. -/
structure CppInv (gone free : Bool) (n : Nat) (s : PeerState) : Prop where
  hold : s.hold = .unowned
  owner : s.cppOwner = !gone
  alive : s.peerAlive = !gone
  rcs : s.rcs = 0
  calls : ∀ g ∈ s.guards, g.call = true
  corrupt : s.corrupt = false
  obs : gone = false → s.obs = if free then .unowned else .owned
  count : s.strong = s.guards.length + (if gone || free then 0 else 1)
  obj : s.objDestroyed = if s.strong = 0 then 1 else 0
  peer : s.peerDestroyed = if gone then 1 else 0
  dangling : s.dangling = n

theorem dropRc_unowned {s : PeerState} (hold : s.hold = .unowned) (k : Nat) (hk : s.strong = k + 1) :
    s.dropRc = { s with strong := k, objDestroyed := if k = 0 then s.objDestroyed + 1 else s.objDestroyed } := by
  obtain ⟨strong, od, pd, pa, ob, ho, rcs, guards, co, d, c⟩ := s
  dsimp only at *
  subst hold hk
  cases k <;> rfl

theorem CppInv.step {gone free : Bool} {n : Nat} {s s' : PeerState} {op : PeerOp} (inv : CppInv gone free n s) (h : op.step s = .done s') :
    CppInv (gone || decide (op = .cppDelete)) (free || decide (op = .deleteSelf)) (n + if gone && op.usesPeer then 1 else 0) s' := by
  obtain ⟨strong, od, pd, pa, ob, ho, rcs, guards, co, d, c⟩ := s
  obtain ⟨hold, owner, alive, hrcs, calls, corrupt, obs, count, obj, peer, dangling⟩ := inv
  dsimp only at *
  have obj' : od = if strong = 0 then 1 else 0 := obj
  have peer' : pd = if gone = true then 1 else 0 := peer
  clear obj peer
  subst hold owner alive hrcs corrupt obj' peer' dangling
  cases op with
  | clone => cases h
  | dropRc => cases h
  | borrow m => cases h
  | call m =>
    cases gone with
    | true => cases h
    | false =>
      have hob := obs rfl
      have key : ∃ s1, PeerState.getObs ⟨strong, if strong = 0 then 1 else 0, 0, true, ob, .unowned, 0, guards, true, d, false⟩ = some s1 ∧
          s1 = ⟨strong + 1, if strong = 0 then 1 else 0, 0, true, ob, .unowned, 0, guards, true, d, false⟩ ∧ strong ≠ 0 ∨
          PeerState.getObs ⟨strong, if strong = 0 then 1 else 0, 0, true, ob, .unowned, 0, guards, true, d, false⟩ = none := by
        cases free with
        | false =>
          subst hob
          refine ⟨_, Or.inl ⟨rfl, rfl, ?_⟩⟩
          simp at count
          omega
        | true =>
          subst hob
          by_cases h0 : strong = 0
          · refine ⟨⟨strong, 0, 0, true, .owned, .unowned, 0, guards, true, d, false⟩, Or.inr ?_⟩
            simp [PeerState.getObs, h0]
          · refine ⟨_, Or.inl ⟨if_neg h0, rfl, h0⟩⟩
      obtain ⟨s1, ⟨hk, rfl, h0⟩ | hk⟩ := key
      · simp only [PeerOp.step, Bool.not_false, if_true, Bool.false_eq_true, if_false, hk] at h
        split at h
        · cases h
          refine ⟨rfl, rfl, rfl, rfl, ?_, rfl, fun _ => ?_, ?_, ?_, rfl, rfl⟩
          · intro g hg
            rcases List.mem_cons.mp hg with rfl | hg
            · rfl
            · exact calls g hg
          · simpa using hob
          · simp only [List.length_cons, Bool.or_false, decide_eq_false (show ¬ (PeerOp.call m = .cppDelete) by simp), decide_eq_false (show ¬ (PeerOp.call m = .deleteSelf) by simp)]
            omega
          · simp [h0]
        · cases h
      · simp only [PeerOp.step, Bool.not_false, if_true, Bool.false_eq_true, if_false, hk] at h
        cases h
  | release i =>
    simp only [PeerOp.step] at h
    split at h
    · cases h
    · rename_i g hg
      have hlen := getElem?_erase_length hg
      have hgc : g.call = true := calls g (List.mem_of_getElem? hg)
      rw [if_pos hgc] at h
      have hd := dropRc_unowned (s := ⟨strong, if strong = 0 then 1 else 0, if gone = true then 1 else 0, !gone, ob, .unowned, 0, guards.eraseIdx i, !gone, d, false⟩) rfl
        ((guards.eraseIdx i).length + (if gone || free then 0 else 1)) (by show strong = _; omega)
      rw [hd] at h
      cases h
      refine ⟨rfl, by simp, by simp, rfl, fun g hg => calls g (List.mem_of_mem_eraseIdx hg), rfl, fun hgone => ?_, ?_, ?_, by simp, by simp [PeerOp.usesPeer]⟩
      · simp at hgone
        rw [obs hgone]
        simp
      · simp
      · have : strong ≠ 0 := by omega
        simp [this]
  | deleteSelf =>
    cases gone with
    | true =>
      simp only [PeerOp.step] at h
      split at h
      · cases h
      · cases h
        refine ⟨rfl, rfl, rfl, rfl, calls, rfl, nofun, ?_, rfl, rfl, rfl⟩
        simpa using count
    | false =>
      simp only [PeerOp.step] at h
      split at h
      · cases h
      · rename_i hgu
        have hlen : guards.length ≠ 0 := fun h0 => hgu (by rw [List.isEmpty_iff]; exact List.length_eq_zero_iff.mp h0)
        cases h
        have hob := obs rfl
        cases free with
        | true =>
          subst hob
          exact ⟨rfl, rfl, rfl, rfl, calls, rfl, fun _ => rfl, count, rfl, rfl, rfl⟩
        | false =>
          subst hob
          have hd := dropRc_unowned (s := ⟨strong, if strong = 0 then 1 else 0, 0, true, .unowned, .unowned, 0, guards, true, d, false⟩) rfl
            guards.length count
          have hs : strong ≠ 0 := by omega
          have hr : PeerState.relinquish ⟨strong, if strong = 0 then 1 else 0, 0, true, .owned, .unowned, 0, guards, true, d, false⟩ =
              ⟨guards.length, 0, 0, true, .unowned, .unowned, 0, guards, true, d, false⟩ := by
            unfold PeerState.relinquish
            dsimp only
            rw [hd]
            simp [hs, hlen]
          simp only [Bool.not_false, Bool.false_eq_true, if_false, hr]
          refine ⟨rfl, rfl, rfl, rfl, calls, rfl, fun _ => rfl, ?_, ?_, rfl, rfl⟩
          · simp
          · simp [hlen]
  | usePeer =>
    cases gone with
    | true =>
      simp only [PeerOp.step] at h
      split at h
      · cases h
      · cases h
        refine ⟨rfl, rfl, rfl, rfl, calls, rfl, nofun, ?_, rfl, rfl, rfl⟩
        simpa using count
    | false =>
      simp only [PeerOp.step] at h
      split at h
      · cases h
      · cases h
        refine ⟨rfl, rfl, rfl, rfl, calls, rfl, fun _ => ?_, ?_, rfl, rfl, rfl⟩
        · simpa using obs rfl
        · simpa using count
  | cppDelete =>
    cases gone with
    | true => cases h
    | false =>
      have hob := obs rfl
      simp only [PeerOp.step, Bool.not_false, if_true] at h
      cases h
      cases free with
      | true =>
        subst hob
        refine ⟨rfl, rfl, rfl, rfl, calls, rfl, nofun, ?_, rfl, rfl, rfl⟩
        show strong = guards.length + _
        simpa using count
      | false =>
        subst hob
        have hd := dropRc_unowned (s := ⟨strong, if strong = 0 then 1 else 0, 1, false, .owned, .unowned, 0, guards, false, d, false⟩) rfl
          guards.length count
        have hs : strong ≠ 0 := by simp at count; omega
        have hr : PeerState.destroyPeer ⟨strong, if strong = 0 then 1 else 0, 0, true, .owned, .unowned, 0, guards, false, d, false⟩ =
            ⟨guards.length, if guards.length = 0 then 1 else 0, 1, false, .owned, .unowned, 0, guards, false, d, false⟩ := by
          unfold PeerState.destroyPeer
          dsimp only
          rw [hd]
          simp [hs]
        simp only [Bool.false_eq_true, if_false, hr]
        refine ⟨rfl, rfl, rfl, rfl, calls, rfl, nofun, ?_, rfl, rfl, rfl⟩
        simp

/-- How often the peer is used by what the Rust object holds after it was destroyed. -/
def usesAfterDelete (ops : List PeerOp) : Nat := (ops.dropWhile fun op => decide (op ≠ .cppDelete)).countP PeerOp.usesPeer

theorem CppInv.run {gone free : Bool} {n : Nat} {s s' : PeerState} {ops : List PeerOp} (inv : CppInv gone free n s) (h : runPeers ops s = some s') :
    CppInv (gone || decide (PeerOp.cppDelete ∈ ops)) (free || decide (PeerOp.deleteSelf ∈ ops))
      (n + if gone then ops.countP PeerOp.usesPeer else usesAfterDelete ops) s' := by
  induction ops generalizing gone free n s with
  | nil =>
    cases h
    have : (n + if gone then ([] : List PeerOp).countP PeerOp.usesPeer else usesAfterDelete []) = n := by cases gone <;> rfl
    rw [this]
    simpa using inv
  | cons op l ih =>
    rw [runPeers] at h
    split at h
    · rename_i s1 h1
      have := ih (inv.step h1) h
      have he : ∀ (free : Bool) (x : PeerOp), (free || decide (x ∈ op :: l)) = ((free || decide (op = x)) || decide (x ∈ l)) := by
        intro free x
        rw [Bool.or_assoc]
        congr 1
        rw [Bool.eq_iff_iff]
        simp only [Bool.or_eq_true, decide_eq_true_eq, List.mem_cons]
        exact or_congr eq_comm Iff.rfl
      rw [he, he]
      have hn : (n + if gone then (op :: l).countP PeerOp.usesPeer else usesAfterDelete (op :: l)) =
          (n + if gone && op.usesPeer then 1 else 0) + (if (gone || decide (op = .cppDelete)) then l.countP PeerOp.usesPeer else usesAfterDelete l) := by
        cases gone with
        | true =>
          simp only [Bool.true_or, Bool.true_and, if_true, List.countP_cons]
          omega
        | false =>
          simp only [Bool.false_or, Bool.false_and, Bool.false_eq_true, if_false, decide_eq_true_eq]
          by_cases hd : op = .cppDelete
          · subst hd
            simp only [if_true, usesAfterDelete]
            rfl
          · simp only [hd, if_false, usesAfterDelete]
            rw [List.dropWhile_cons_of_pos (by simpa using hd)]
            omega
      rw [hn]
      exact this
    · cases h
    · cases h

/-- **C++-owned**: the peer is destroyed when its owner in C++ is, and only once. The Rust object is destroyed once, when the peer is or has been told to let go of it, and no call of a
virtual method is going on any more. A peer which has been destroyed is used exactly as often as somebody, in such a call, asks for the peer after its owner destroyed it. -/
theorem cpp_owned {ops : List PeerOp} {s : PeerState} (h : runPeers ops newCppOwned = some s) :
    s.peerDestroyed = (if PeerOp.cppDelete ∈ ops then 1 else 0) ∧ s.peerAlive = decide (s.peerDestroyed = 0) ∧
      s.objDestroyed = (if (PeerOp.cppDelete ∈ ops ∨ PeerOp.deleteSelf ∈ ops) ∧ s.guards = [] then 1 else 0) ∧
      s.dangling = usesAfterDelete ops ∧ s.corrupt = false := by
  have inv := CppInv.run (gone := false) (free := false) (n := 0) (s := newCppOwned)
    (by constructor <;> first | rfl | (intro g hg; cases hg) | (intro _; rfl)) h
  simp only [Bool.false_or, Bool.false_eq_true, if_false, Nat.zero_add] at inv
  have hc := inv.count
  refine ⟨?_, ?_, ?_, inv.dangling, inv.corrupt⟩
  · rw [inv.peer]
    simp
  · rw [inv.alive, inv.peer]
    by_cases hd : PeerOp.cppDelete ∈ ops <;> simp [hd]
  · rw [inv.obj]
    congr 1
    rw [eq_iff_iff, ← List.length_eq_zero_iff]
    by_cases hd : PeerOp.cppDelete ∈ ops <;> by_cases hf : PeerOp.deleteSelf ∈ ops <;>
      simp only [hd, hf, decide_true, decide_false, Bool.or_true, Bool.or_false, Bool.false_eq_true, if_true, if_false, or_true, or_false, or_self,
        true_and, false_and, iff_false] at hc ⊢ <;> omega

/-- Nothing is used after it was destroyed if nobody asks for the peer once its owner has destroyed it. -/
theorem cpp_owned_safe_partial {ops : List PeerOp} {s : PeerState} (h : runPeers ops newCppOwned = some s)
    (hno : ∀ op ∈ ops.dropWhile (fun op => decide (op ≠ .cppDelete)), op.usesPeer = false) : s.dangling = 0 := by
  rw [(cpp_owned h).2.2.2.1, usesAfterDelete, List.countP_eq_zero]
  intro op hop
  rw [hno op hop]
  decide

/-- **The property fails** for a peer which is owned by C++: it may be destroyed while one of its virtual methods runs – the program deletes the listener it is just notifying –, and if
the method then asks for its peer, it gets a reference to what was destroyed. -/
theorem peer_after_delete_false :
    ∃ ops s, runPeers ops newCppOwned = some s ∧ s.peerDestroyed = 1 ∧ s.objDestroyed = 0 ∧ s.dangling = 1 :=
  ⟨[.call true, .cppDelete, .usePeer], _, rfl, by decide +kernel⟩

/-! ## Calls -/

/-- The ways to make a pair. -/
inductive PeerStart : PeerState → Prop where
  | rust : PeerStart newRustOwned
  | cpp : PeerStart newCppOwned
  | self : PeerStart newSelfOwned

/-- **A call into a destroyed or borrowed object panics**: as long as there is a peer, C++ can call its virtual methods, and this panics exactly if the Rust object has been destroyed or there is
a reference to it which is in the way; otherwise there now is one more reference to it, and nothing is destroyed. -/
theorem call_outcome {start s : PeerState} {ops : List PeerOp} (hstart : PeerStart start) (h : runPeers ops start = some s) (m : Bool) :
    ((PeerOp.call m).step s = .impossible ↔ s.peerAlive = false) ∧
    ((PeerOp.call m).step s = .panics ↔ s.peerAlive = true ∧ (s.objDestroyed = 1 ∨ (if m then s.guards ≠ [] else ∃ g ∈ s.guards, g.mutable = true))) ∧
    (∀ s', (PeerOp.call m).step s = .done s' → s' = { s with strong := s.strong + 1, guards := ⟨true, m⟩ :: s.guards }) := by
  have key : s.objDestroyed = (if s.strong = 0 then 1 else 0) ∧ (s.peerAlive = true → s.obs = .owned → s.strong ≠ 0) := by
    cases hstart with
    | rust =>
      have inv := OwningInv.run (free := true) (s := newRustOwned) (by constructor <;> rfl) h
      exact ⟨inv.obj, fun ha _ => by have := inv.alive; rw [ha] at this; simpa using this.symm⟩
    | self =>
      have inv := OwningInv.run (free := false) (s := newSelfOwned) (by constructor <;> rfl) h
      exact ⟨inv.obj, fun ha _ => by have := inv.alive; rw [ha] at this; simpa using this.symm⟩
    | cpp =>
      have inv := CppInv.run (gone := false) (free := false) (n := 0) (s := newCppOwned)
        (by constructor <;> first | rfl | (intro g hg; cases hg) | (intro _; rfl)) h
      refine ⟨inv.obj, fun ha ho => ?_⟩
      have h1 := inv.alive
      rw [ha] at h1
      have hg : (false || decide (PeerOp.cppDelete ∈ ops)) = false := by
        cases hx : (false || decide (PeerOp.cppDelete ∈ ops)) with
        | false => rfl
        | true => rw [hx] at h1; cases h1
      have hob := inv.obs hg
      have hf : (false || decide (PeerOp.deleteSelf ∈ ops)) = false := by
        cases hx : (false || decide (PeerOp.deleteSelf ∈ ops)) with
        | false => rfl
        | true => rw [hx, ho] at hob; cases hob
      have hc := inv.count
      rw [hg, hf] at hc
      simp only [Bool.or_false, Bool.false_eq_true, if_false] at hc
      omega
  have hcan : canBorrow s.guards m = false ↔ (if m then s.guards ≠ [] else ∃ g ∈ s.guards, g.mutable = true) := by
    cases m <;> simp [canBorrow]
  cases ha : s.peerAlive with
  | false => simp [PeerOp.step, ha]
  | true =>
    by_cases h0 : s.strong = 0
    · have hob : s.obs = .unowned := by
        cases hob : s.obs with
        | unowned => rfl
        | owned => exact absurd h0 (key.2 ha hob)
      have hg : s.getObs = none := by simp [PeerState.getObs, hob, h0]
      simp [PeerOp.step, ha, hg, key.1, h0]
    · have hg : s.getObs = some { s with strong := s.strong + 1 } := by
        unfold PeerState.getObs
        cases s.obs with
        | owned => rfl
        | unowned => exact if_neg h0
      simp only [PeerOp.step, ha, hg, key.1, h0, if_false, if_true, ← hcan]
      cases hc : canBorrow s.guards m with
      | false => simp
      | true => simp [eq_comm]

/-- Nested calls, `delete_self` in the innermost, and the guards going one by one. -/
example : (runPeers [.call false, .call false, .deleteSelf, .dropRc, .release 0, .release 0] newSelfOwned).map
    (fun s => (s.objDestroyed, s.peerDestroyed, s.guards)) = some (1, 1, []) := by decide +kernel

example : (runPeers [.clone, .dropRc, .call true, .dropRc] newRustOwned).map (fun s => (s.objDestroyed, s.peerDestroyed)) = some (0, 0) := by decide +kernel

example : (runPeers [.call false, .deleteSelf, .release 0] newCppOwned).map (fun s => (s.objDestroyed, s.peerDestroyed, (PeerOp.call false).step s)) =
    some (1, 0, .panics) := by decide +kernel

end Verif
