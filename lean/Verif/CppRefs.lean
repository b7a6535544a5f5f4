import Verif.AMap

/-!
# C++ references held by Rust code

Model of `src/reference_wrapper.rs` and of `within_box`, `within_cpp_pin` and `within_unique_ptr` in `src/lib.rs`: the
references, which are addresses; the pins, which own an object and hand out references to it; and a machine which runs any
history of their operations. `Box` and `UniquePtr` behave as their documentation says: moving one does not move what it
points to, and dropping one destroys that.

Left out: lifetimes (only `CppLtRef` and `CppMutLtRef` have one, and the machine keeps no scopes), the `Receiver`,
`Unsize` and `DispatchFromDyn` instances, unsized types.
-/

set_option autoImplicit false

namespace Verif

/-- A place in memory; 0 is null. -/
abbrev Addr := Nat

/-- `CppRef`: src/reference_wrapper.rs:99-100. -/
structure CppRef where
  ptr : Addr
deriving DecidableEq, Repr

/-- `CppMutRef`: src/reference_wrapper.rs:225-226. -/
structure CppMutRef where
  ptr : Addr
deriving DecidableEq, Repr

/-- `CppLtRef`: src/reference_wrapper.rs:162-166. -/
structure CppLtRef where
  ref : CppRef
deriving DecidableEq, Repr

/-- `CppMutLtRef`: src/reference_wrapper.rs:281-285. -/
structure CppMutLtRef where
  ref : CppMutRef
deriving DecidableEq, Repr

/-- `CppRef::as_ptr`: src/reference_wrapper.rs:104-106. -/
def CppRef.asPtr (r : CppRef) : Addr := r.ptr

/-- `CppRef::from_ptr`: src/reference_wrapper.rs:124-126. -/
def CppRef.fromPtr (a : Addr) : CppRef := ⟨a⟩

/-- `CppRef::const_cast`: src/reference_wrapper.rs:139-141. -/
def CppRef.constCast (r : CppRef) : CppMutRef := ⟨r.ptr⟩

/-- `CppMutRef::as_mut_ptr`: src/reference_wrapper.rs:230-232. -/
def CppMutRef.asMutPtr (r : CppMutRef) : Addr := r.ptr

/-- `CppMutRef::from_ptr`: src/reference_wrapper.rs:250-252. -/
def CppMutRef.fromPtr (a : Addr) : CppMutRef := ⟨a⟩

/-- `Deref for CppMutRef`, a transmutation: src/reference_wrapper.rs:257-265. -/
def CppMutRef.deref (r : CppMutRef) : CppRef := ⟨r.ptr⟩

/-- `From<CppMutRef<T>> for CppRef<T>`: src/reference_wrapper.rs:275-279. -/
def CppMutRef.toConst (r : CppMutRef) : CppRef := ⟨r.ptr⟩

/-- `AsCppRef for CppMutRef`: src/reference_wrapper.rs:318-322. -/
def CppMutRef.asCppRef (r : CppMutRef) : CppRef := .fromPtr r.ptr

/-- `CppLtRef::from_ptr`: src/reference_wrapper.rs:210-215. -/
def CppLtRef.fromPtr (a : Addr) : CppLtRef := ⟨.fromPtr a⟩

/-- `Deref for CppLtRef`, a transmutation: src/reference_wrapper.rs:168-175. -/
def CppLtRef.deref (r : CppLtRef) : CppRef := r.ref

/-- `CppLtRef::lifetime_cast`: src/reference_wrapper.rs:205-207. -/
def CppLtRef.lifetimeCast (r : CppLtRef) : CppRef := ⟨r.ref.asPtr⟩

/-- `CppMutLtRef::from_ptr`: src/reference_wrapper.rs:295-300. -/
def CppMutLtRef.fromPtr (a : Addr) : CppMutLtRef := ⟨.fromPtr a⟩

/-- `CppMutLtRef::lifetime_cast`: src/reference_wrapper.rs:290-292. -/
def CppMutLtRef.lifetimeCast (r : CppMutLtRef) : CppMutRef := ⟨r.ref.asMutPtr⟩

/-- `CppPin`: the box, as the place it owns, and a reference to that: src/reference_wrapper.rs:388. -/
structure CppPin where
  contents : Addr
  ref : CppMutRef
deriving DecidableEq, Repr

/-- `CppPin::from_box`: src/reference_wrapper.rs:411-421. The box is the place it owns. -/
def CppPin.fromBox (item : Addr) : CppPin := ⟨item, ⟨item⟩⟩

/-- `CppPin::new`, once `Box::new` has put the item in a place: src/reference_wrapper.rs:395-402. -/
def CppPin.new (contents : Addr) : CppPin := ⟨contents, ⟨contents⟩⟩

/-- `CppPin::from_pinned_box`: src/reference_wrapper.rs:430-434. -/
def CppPin.fromPinnedBox (item : Addr) : CppPin := .fromBox item

/-- `CppPin::as_ptr`: src/reference_wrapper.rs:329-332,437-439. -/
def CppPin.asPtr (p : CppPin) : Addr := p.contents

/-- `CppPin::as_mut_ptr`: src/reference_wrapper.rs:333-335,442-444. -/
def CppPin.asMutPtr (p : CppPin) : Addr := p.contents

/-- `CppPin::extract`: src/reference_wrapper.rs:477-485. -/
def CppPin.extract (p : CppPin) : Addr := p.contents

/-- `AsCppRef for CppPin`: src/reference_wrapper.rs:488-492. -/
def CppPin.asCppRef (p : CppPin) : CppRef := .fromPtr p.asPtr

/-- `AsCppMutRef for CppPin`: src/reference_wrapper.rs:494-498. -/
def CppPin.asCppMutRef (p : CppPin) : CppMutRef := .fromPtr p.asMutPtr

/-- `Deref for CppPin`, which is also how methods are called on the pin: src/reference_wrapper.rs:500-506. -/
def CppPin.deref (p : CppPin) : CppMutRef := p.ref

/-- An assignment to what `deref_mut` gives: src/reference_wrapper.rs:508-512. -/
def CppPin.derefAssign (p : CppPin) (r : CppMutRef) : CppPin := { p with ref := r }

/-- `CppUniquePtrPin`; the `UniquePtr` is the place it owns, if it is not null: src/reference_wrapper.rs:521. -/
structure CppUniquePtrPin where
  item : Option Addr
  ref : CppMutRef
deriving DecidableEq, Repr

/-- `CppUniquePtrPin::new`: src/reference_wrapper.rs:527-530. -/
def CppUniquePtrPin.new (item : Option Addr) : CppUniquePtrPin := ⟨item, .fromPtr (item.getD 0)⟩

/-- `CppUniquePtrPin::as_ptr`; `none`: it panics: src/reference_wrapper.rs:533-538. -/
def CppUniquePtrPin.asPtr (p : CppUniquePtrPin) : Option Addr := p.item

/-- `AsCppRef for CppUniquePtrPin`; `none`: it panics: src/reference_wrapper.rs:541-545. -/
def CppUniquePtrPin.asCppRef (p : CppUniquePtrPin) : Option CppRef := p.asPtr.map .fromPtr

/-- `AsCppMutRef for CppUniquePtrPin`: src/reference_wrapper.rs:547-551. -/
def CppUniquePtrPin.asCppMutRef (p : CppUniquePtrPin) : CppMutRef := p.ref

/-- `Deref for CppUniquePtrPin`: src/reference_wrapper.rs:553-559. -/
def CppUniquePtrPin.deref (p : CppUniquePtrPin) : CppMutRef := p.ref

/-- `AsCppRef for UniquePtr`: src/reference_wrapper.rs:562-566. -/
def uniquePtrAsCppRef (item : Option Addr) : CppRef := .fromPtr (item.getD 0)

/-! ## The machine -/

/-- A variable which holds a C++ reference. -/
inductive HeldRef where
  | const (r : CppRef)
  | mut (r : CppMutRef)
  | constLt (r : CppLtRef)
  | mutLt (r : CppMutLtRef)
deriving DecidableEq, Repr

/-- The address which C++ gets when the reference is passed to it. -/
def HeldRef.addr : HeldRef → Addr
  | .const r => r.asPtr
  | .mut r => r.asMutPtr
  | .constLt r => r.deref.asPtr
  | .mutLt r => r.ref.asMutPtr

/-- A variable which owns an object. -/
inductive RefOwner where
  | box (a : Addr)
  | pin (p : CppPin)
  | unique (a : Option Addr)
  | uniquePin (p : CppUniquePtrPin)
deriving DecidableEq, Repr

/-- The object's place. -/
def RefOwner.addr : RefOwner → Option Addr
  | .box a => some a
  | .pin p => some p.contents
  | .unique a => a
  | .uniquePin p => p.item

/-- An object: which one it is, counted as they are made, and what it holds. -/
structure RefObj where
  id : Nat
  val : Nat
deriving DecidableEq, Repr

/-- The state of a program. Each reference has with it the object it was taken from, which is not there when the program
runs. -/
structure RefState where
  mem : AMap Addr RefObj := []
  made : Nat := 0
  freed : List Nat := []
  owners : AMap String RefOwner := []
  refs : AMap String (HeldRef × Option Nat) := []
deriving DecidableEq, Repr

inductive RefRun where
  | ok (s : RefState)
  /-- the compiler or the allocator does not let this happen -/
  | stuck
  | panic
  /-- something is done to a place where there is no object -/
  | undefined
deriving DecidableEq, Repr

/-- The ways to turn one reference into another. -/
inductive RefCast where
  | copy
  | constCast
  | toConst
  | asCppRef
  | deref
  | lifetimeCast
  | withLifetime
deriving DecidableEq, Repr

/-- What a program does. New objects come with the place which the allocator chose. -/
inductive RefOp where
  | newBox (x : String) (a : Addr) (v : Nat)
  | newPin (x : String) (a : Addr) (v : Nat)
  | newUnique (x : String) (a : Addr) (v : Nat)
  | nullUnique (x : String)
  /-- `from_box`, or `from_pinned_box` -/
  | pinBox (x b : String) (pinned : Bool)
  | pinUnique (x u : String)
  | move (x y : String)
  | drop (x : String)
  | extract (b x : String)
  /-- `as_cpp_ref`, of a pin of either kind or of a `UniquePtr` -/
  | refOf (y x : String)
  /-- `as_cpp_mut_ref` -/
  | mutOf (y x : String)
  /-- a copy of what `deref` gives -/
  | derefOf (y x : String)
  /-- `*x = y` -/
  | derefAssign (x y : String)
  | cast (k : RefCast) (z y : String)
  /-- C++ code writes to what the reference refers to -/
  | cppWrite (y : String) (v : Nat)
  /-- `*x.as_mut() = v`, which is unsafe -/
  | rustWrite (x : String) (v : Nat)
deriving DecidableEq, Repr

/-- Which reference one turns into, if there is such a function. `withLifetime` is `CppLtRef::from_ptr(r.as_ptr())`, which is
how references with lifetimes are made: src/reference_wrapper.rs:139-141,150,168-173,205-215,260-264,268,276,290-300,319. -/
def HeldRef.cast : RefCast → HeldRef → Option HeldRef
  | .copy, .mutLt _ => none
  | .copy, r => some r
  | .constCast, .const r => some (.mut r.constCast)
  | .constCast, .mut r => some (.mut r.deref.constCast)
  | .constCast, .constLt r => some (.mut r.deref.constCast)
  | .constCast, .mutLt _ => none
  | .toConst, .mut r => some (.const r.toConst)
  | .toConst, _ => none
  | .asCppRef, .mut r => some (.const r.asCppRef)
  | .asCppRef, _ => none
  | .deref, .mut r => some (.const r.deref)
  | .deref, .constLt r => some (.const r.deref)
  | .deref, _ => none
  | .lifetimeCast, .constLt r => some (.const r.lifetimeCast)
  | .lifetimeCast, .mutLt r => some (.mut r.lifetimeCast)
  | .lifetimeCast, _ => none
  | .withLifetime, .const r => some (.constLt (.fromPtr r.asPtr))
  | .withLifetime, .mut r => some (.mutLt (.fromPtr r.asMutPtr))
  | .withLifetime, _ => none

/-- A new object, in a place where there is none, held by a new variable. -/
def RefState.alloc (s : RefState) (x : String) (a : Addr) (v : Nat) (o : RefOwner) : RefRun :=
  if a = 0 ∨ (AMap.get? s.mem a).isSome ∨ (AMap.get? s.owners x).isSome then .stuck
  else .ok { s with mem := AMap.insert s.mem a ⟨s.made, v⟩, made := s.made + 1, owners := AMap.insert s.owners x o }

/-- One variable gives what it holds to another, which is new. -/
def RefState.pass (s : RefState) (x y : String) (o : RefOwner) : RefRun :=
  if (AMap.get? s.owners x).isSome then .stuck
  else .ok { s with owners := AMap.insert (AMap.erase s.owners y) x o }

/-- The object in a place. -/
def RefState.objAt (s : RefState) (a : Option Addr) : Option Nat := a.bind fun a => (AMap.get? s.mem a).map (·.id)

/-- A reference is put in a variable. -/
def RefState.hold (s : RefState) (y : String) (r : HeldRef) (o : Option Nat) : RefRun :=
  .ok { s with refs := AMap.insert s.refs y (r, o) }

/-- What a place holds is changed. -/
def RefState.write (s : RefState) (a : Addr) (v : Nat) : RefRun :=
  match AMap.get? s.mem a with
  | some o => .ok { s with mem := AMap.insert s.mem a { o with val := v } }
  | none => .undefined

/-- One step of a program. -/
def RefOp.step (s : RefState) : RefOp → RefRun
  | .newBox x a v => s.alloc x a v (.box a)
  | .newPin x a v => s.alloc x a v (.pin (.new a))
  | .newUnique x a v => s.alloc x a v (.unique (some a))
  | .nullUnique x =>
    if (AMap.get? s.owners x).isSome then .stuck
    else .ok { s with owners := AMap.insert s.owners x (.unique none) }
  | .pinBox x b pinned =>
    match AMap.get? s.owners b with
    | some (.box a) => s.pass x b (.pin (if pinned then .fromPinnedBox a else .fromBox a))
    | _ => .stuck
  | .pinUnique x u =>
    match AMap.get? s.owners u with
    | some (.unique a) => s.pass x u (.uniquePin (.new a))
    | _ => .stuck
  | .move x y =>
    match AMap.get? s.owners y with
    | some o => s.pass x y o
    | none => .stuck
  | .drop x =>
    match AMap.get? s.owners x with
    | none => .stuck
    | some o =>
      let s' := { s with owners := AMap.erase s.owners x }
      match o.addr with
      | none => .ok s'
      | some a =>
        match AMap.get? s.mem a with
        | none => .undefined
        | some obj => .ok { s' with mem := AMap.erase s.mem a, freed := obj.id :: s.freed }
  | .extract b x =>
    match AMap.get? s.owners x with
    | some (.pin p) => s.pass b x (.box p.extract)
    | _ => .stuck
  | .refOf y x =>
    match AMap.get? s.owners x with
    | some (.pin p) => s.hold y (.const p.asCppRef) (s.objAt (some p.contents))
    | some (.unique a) => s.hold y (.const (uniquePtrAsCppRef a)) (s.objAt a)
    | some (.uniquePin p) =>
      match p.asCppRef with
      | some r => s.hold y (.const r) (s.objAt p.item)
      | none => .panic
    | _ => .stuck
  | .mutOf y x =>
    match AMap.get? s.owners x with
    | some (.pin p) => s.hold y (.mut p.asCppMutRef) (s.objAt (some p.contents))
    | some (.uniquePin p) => s.hold y (.mut p.asCppMutRef) (s.objAt p.item)
    | _ => .stuck
  | .derefOf y x =>
    match AMap.get? s.owners x with
    | some (.pin p) => s.hold y (.mut p.deref) (s.objAt (some p.contents))
    | some (.uniquePin p) => s.hold y (.mut p.deref) (s.objAt p.item)
    | _ => .stuck
  | .derefAssign x y =>
    match AMap.get? s.owners x, AMap.get? s.refs y with
    | some (.pin p), some (.mut r, _) => .ok { s with owners := AMap.insert s.owners x (.pin (p.derefAssign r)) }
    | _, _ => .stuck
  | .cast k z y =>
    match AMap.get? s.refs y with
    | some (r, o) =>
      match r.cast k with
      | some r' => s.hold z r' o
      | none => .stuck
    | none => .stuck
  | .cppWrite y v =>
    match AMap.get? s.refs y with
    | some (r, _) => s.write r.addr v
    | none => .stuck
  | .rustWrite x v =>
    match AMap.get? s.owners x with
    | some (.pin p) => s.write p.asMutPtr v
    | _ => .stuck

/-- A program from a state on. -/
def runRefs : List RefOp → RefState → RefRun
  | [], s => .ok s
  | op :: ops, s =>
    match op.step s with
    | .ok s' => runRefs ops s'
    | r => r

end Verif
