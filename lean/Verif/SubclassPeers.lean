import Verif.Core

/-!
# The two halves of a Rust subclass

Model of `src/subclass.rs`, and of the generated code which uses it (engine/src/conversion/codegen_rs/mod.rs:538-740, engine/src/conversion/codegen_cpp/mod.rs:733-753):
the Rust object, the C++ peer, and who keeps which of them alive. `Rc` and `RefCell` behave as their documentation says.
-/

set_option autoImplicit false

namespace Verif

/-- `CppSubclassRustPeerHolder`, in the field `obs` of the peer: src/subclass.rs:80-83. -/
inductive RustHolder where
  | owned
  | unowned
deriving DecidableEq, Repr

/-- `CppSubclassCppPeerHolder`, in the field of the Rust object: src/subclass.rs:106-111. -/
inductive CppHolder where
  | empty
  | owned
  | unowned
deriving DecidableEq, Repr

/-- Something which has a reference to the Rust object: a virtual method which C++ has called, or a guard which the user of an `Rc` has. Each has an `Rc` of its own: the
method has the one it got from the holder, and the `Rc` of a guard cannot go away while the guard is there. -/
structure PeerGuard where
  call : Bool
  mutable : Bool
deriving DecidableEq, Repr

/-- The state of the two halves. -/
structure PeerState where
  /-- the reference count of the Rust object -/
  strong : Nat
  objDestroyed : Nat
  peerDestroyed : Nat
  /-- there is a peer, and it has not been destroyed -/
  peerAlive : Bool
  /-- what the peer holds -/
  obs : RustHolder
  /-- what the Rust object holds -/
  hold : CppHolder
  /-- how many `Rc`s users have, beside those of guards -/
  rcs : Nat
  guards : List PeerGuard
  /-- a `unique_ptr` to the peer is somewhere in C++ -/
  cppOwner : Bool
  /-- how often a peer was used which had been destroyed -/
  dangling : Nat
  /-- a reference count was to be made smaller than nothing -/
  corrupt : Bool
deriving DecidableEq, Repr

/-- An `Rc` is dropped. If it was the last, the Rust object is dropped, and so is what it holds. If that is its peer, then what the peer holds is dropped; were that an
`Rc` of the Rust object, its count would be wrong. -/
def PeerState.dropRc (s : PeerState) : PeerState :=
  match s.strong with
  | 0 => { s with corrupt := true }
  | 1 =>
    let s := { s with strong := 0, objDestroyed := s.objDestroyed + 1 }
    match s.hold with
    | .owned => { s with peerAlive := false, peerDestroyed := s.peerDestroyed + 1, corrupt := s.corrupt || decide (s.obs = .owned) }
    | .empty => s
    | .unowned => s
  | k + 2 => { s with strong := k + 1 }

/-- The peer is destroyed, and what it holds is dropped. -/
def PeerState.destroyPeer (s : PeerState) : PeerState :=
  let s := { s with peerAlive := false, peerDestroyed := s.peerDestroyed + 1 }
  match s.obs with
  | .owned => s.dropRc
  | .unowned => s

/-- The Rust object, just put in an `Rc`. -/
def PeerState.start : PeerState :=
  { strong := 1, objDestroyed := 0, peerDestroyed := 0, peerAlive := false, obs := .unowned, hold := .empty, rcs := 1, guards := [], cppOwner := false,
    dangling := 0, corrupt := false }

/-- `make_owning_peer` (src/subclass.rs:146-166) with the `peer_boxer` of `new_rust_owned` (316): the copy of the `Rc` which the boxer gets is only looked at, and then dropped. -/
def newRustOwned : PeerState :=
  let me := PeerState.start
  -- `me.clone()`, `Rc::downgrade(&me)`, and the end of the closure
  let me := { me with strong := me.strong + 1 }
  let me := me.dropRc
  -- `peer_constructor(.., holder)`
  let me := { me with peerAlive := true, obs := .unowned }
  -- `set_owned(cpp_side)`
  { me with hold := .owned }

/-- `make_owning_peer` with the `peer_boxer` of `new_self_owned` (src/subclass.rs:332-338). -/
def newSelfOwned : PeerState :=
  let me := PeerState.start
  let me := { me with strong := me.strong + 1 }
  let me := { me with peerAlive := true, obs := .owned }
  { me with hold := .owned }

/-- `new_cpp_owned`: src/subclass.rs:300-307. -/
def newCppOwned : PeerState :=
  let me := PeerState.start
  let me := { me with strong := me.strong + 1 }
  let me := { me with peerAlive := true, obs := .owned }
  -- `set_unowned(&mut cpp_side)`
  let me := { me with hold := .unowned }
  -- `cpp_side` is given to the caller, and `me` is dropped
  ({ me with cppOwner := true, rcs := 0 } : PeerState).dropRc

/-- What can happen next. -/
inductive PeerOp where
  /-- a user makes another `Rc` -/
  | clone
  /-- a user drops an `Rc` -/
  | dropRc
  /-- `borrow` or `borrow_mut` of an `Rc` by a user -/
  | borrow (mutable : Bool)
  /-- C++ calls a virtual method of the peer -/
  | call (mutable : Bool)
  /-- a guard is dropped, or a virtual method comes to its end -/
  | release (i : Nat)
  /-- `delete_self`, by someone who has a reference to the Rust object -/
  | deleteSelf
  /-- `peer` or `peer_mut`, by someone who has a reference to the Rust object -/
  | usePeer
  /-- the `unique_ptr` in C++ goes away -/
  | cppDelete
deriving DecidableEq, Repr

/-- What comes of it. `impossible`: the program cannot do this, for want of an `Rc`, a reference, or a peer. -/
inductive PeerOutcome where
  | impossible
  | panics
  | done (s : PeerState)
deriving DecidableEq, Repr

/-- `try_borrow` and `try_borrow_mut` of `RefCell`. -/
def canBorrow (guards : List PeerGuard) (mutable : Bool) : Bool :=
  if mutable then guards.isEmpty else guards.all fun g => !g.mutable

/-- `CppSubclassRustPeerHolder::get`: src/subclass.rs:86-91. Whether there is an `Rc`, which then is counted. -/
def PeerState.getObs (s : PeerState) : Option PeerState :=
  match s.obs with
  | .owned => some { s with strong := s.strong + 1 }
  | .unowned => if s.strong = 0 then none else some { s with strong := s.strong + 1 }

/-- `relinquish_ownership`: src/subclass.rs:92-99, codegen_rs/mod.rs:564-566, 662-666, and codegen_cpp/mod.rs:744: what the peer holds is taken out, given to Rust, which drops
the `Rc` if there is one, and the result is put back in the peer, which had better still be there. -/
def PeerState.relinquish (s : PeerState) : PeerState :=
  let old := s.obs
  let s := { s with obs := .unowned }
  let s := match old with
    | .owned => s.dropRc
    | .unowned => s
  if s.peerAlive then s else { s with dangling := s.dangling + 1 }

/-- One step. -/
def PeerOp.step (op : PeerOp) (s : PeerState) : PeerOutcome :=
  match op with
  | .clone => if s.rcs = 0 then .impossible else .done { s with rcs := s.rcs + 1, strong := s.strong + 1 }
  | .dropRc => if s.rcs = 0 then .impossible else .done ({ s with rcs := s.rcs - 1 } : PeerState).dropRc
  | .borrow m =>
    if s.rcs = 0 then .impossible
    else if canBorrow s.guards m then .done { s with rcs := s.rcs - 1, guards := ⟨false, m⟩ :: s.guards }
    else .panics
  | .call m =>
    -- codegen_rs/mod.rs:722-738
    if s.peerAlive then
      match s.getObs with
      | none => .panics
      | some s' => if canBorrow s.guards m then .done { s' with guards := ⟨true, m⟩ :: s.guards } else .panics
    else .impossible
  | .release i =>
    match s.guards[i]? with
    | none => .impossible
    | some g =>
      let s := { s with guards := s.guards.eraseIdx i }
      if g.call then .done s.dropRc else .done { s with rcs := s.rcs + 1 }
  | .deleteSelf =>
    -- src/subclass.rs:343-345, 287-289, 125-133
    if s.guards.isEmpty then .impossible
    else
      match s.hold with
      | .empty => .panics
      | .owned | .unowned => if s.peerAlive then .done s.relinquish else .done { s with dangling := s.dangling + 1 }
  | .usePeer =>
    -- src/subclass.rs:287-295, 114-133
    if s.guards.isEmpty then .impossible
    else
      match s.hold with
      | .empty => .panics
      | .owned | .unowned => if s.peerAlive then .done s else .done { s with dangling := s.dangling + 1 }
  | .cppDelete => if s.cppOwner then .done ({ s with cppOwner := false } : PeerState).destroyPeer else .impossible

/-- A history without panics. `none` if it is impossible, or there is a panic. -/
def runPeers : List PeerOp → PeerState → Option PeerState
  | [], s => some s
  | op :: l, s =>
    match op.step s with
    | .done s => runPeers l s
    | .impossible => none
    | .panics => none

end Verif
