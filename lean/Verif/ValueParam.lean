import Verif.Core

/-!
# Handing values over to C++

Model of `src/value_param.rs` and `src/rvalue_param.rs`: the slots which generated functions put by-value and rvalue
arguments in for as long as C++ has a pointer to them, and of the life of those slots in a generated function.
-/

set_option autoImplicit false

namespace Verif

/-! ## Objects -/

/-- What happens to C++ objects, which are told apart by numbers. `destroyedUninit` is the destructor being run on memory which no constructor has filled. `called` is a C++ function
being given pointers to objects. -/
inductive ObjEvent where
  | made (o : Nat)
  | destroyed (o : Nat)
  | destroyedUninit
  | called (ptrs : List Nat)
deriving DecidableEq, Repr

/-- The number the next object to be made gets, and what has happened so far, the oldest first. -/
structure ObjWorld where
  next : Nat
  events : List ObjEvent
deriving DecidableEq, Repr

/-- Something happens. -/
def ObjWorld.log (w : ObjWorld) (e : ObjEvent) : ObjWorld := { w with events := w.events ++ [e] }

/-- The destructor of an object is run. -/
def ObjWorld.destroy (w : ObjWorld) (o : Nat) : ObjWorld := w.log (.destroyed o)

/-- The destructors of objects are run. -/
def ObjWorld.destroyAll (w : ObjWorld) (os : List Nat) : ObjWorld := os.foldl ObjWorld.destroy w

/-- `MaybeUninit<T>`: memory which a constructor has filled, or not. Dropping it does nothing. -/
inductive MaybeUninit where
  | uninit
  | init (o : Nat)
deriving DecidableEq, Repr

/-- `UniquePtr<T>`: null, or a pointer to an object which is destroyed when it is dropped. -/
abbrev UniquePtr := Option Nat

/-- `impl New`: a constructor which has yet to be run. Running it drops what it holds, whether it comes to an end or panics. (How the `moveit` crate
implements this is not modelled.) -/
structure NewCtor where
  holds : List Nat
  panics : Bool
deriving DecidableEq, Repr

/-- `New::new`: runs a constructor on memory. The result says whether it came to an end. -/
def NewCtor.run (c : NewCtor) (w : ObjWorld) : Bool × MaybeUninit × ObjWorld :=
  if c.panics then (false, .uninit, w.destroyAll c.holds)
  else (true, .init w.next, (({ w with next := w.next + 1 } : ObjWorld).log (.made w.next)).destroyAll c.holds)

/-! ## By-value parameters -/

/-- What implements `ValueParam<T>`: src/value_param.rs:86 `&T`, :114 `UniquePtr<T>`, :138 `Pin<Box<T>>`, :155 `&UniquePtr<T>`, :176
`&Pin<Box<T>>`, :220 `ByNew<N>`. -/
inductive VpType where
  | ref
  | uniquePtr
  | pinBox
  | refUniquePtr
  | refPinBox
  | byNew
deriving DecidableEq, Repr

/-- `&T`: an object lent by the caller, and whether copying it panics. -/
structure Lent where
  obj : Nat
  copyPanics : Bool
deriving DecidableEq, Repr

/-- The values of the types. -/
def VpType.Val : VpType → Type
  | .ref => Lent
  | .uniquePtr => UniquePtr
  | .pinBox => Nat
  | .refUniquePtr => Option Lent
  | .refPinBox => Lent
  | .byNew => NewCtor

/-- `ValueParam::StackStorage`: src/value_param.rs:90, 118, 139, 159, 180, 221. -/
def VpType.Storage : VpType → Type
  | .ref => MaybeUninit
  | .uniquePtr => UniquePtr
  | .pinBox => Nat
  | .refUniquePtr => MaybeUninit
  | .refPinBox => MaybeUninit
  | .byNew => MaybeUninit

/-- What the compiler does when storage of this type is dropped: nothing for `MaybeUninit`; for the owning pointers the object is destroyed. -/
def VpType.glue : (t : VpType) → t.Storage → ObjWorld → ObjWorld
  | .ref, _, w => w
  | .uniquePtr, none, w => w
  | .uniquePtr, some o, w => w.destroy o
  | .pinBox, o, w => w.destroy o
  | .refUniquePtr, _, w => w
  | .refPinBox, _, w => w
  | .byNew, _, w => w

/-- `*slot = Some(..)`: what the slot held is dropped. -/
def VpType.overwrite (t : VpType) (slot : Option t.Storage) (w : ObjWorld) : ObjWorld :=
  match slot with
  | none => w
  | some s => t.glue s w

/-- src/value_param.rs:92-97: the slot is first said to be filled, and then the copy constructor is run on it. The result says whether this came to
an end, and what then is in the slot. -/
def populateRef (p : Lent) (slot : Option MaybeUninit) (w : ObjWorld) : Bool × Option MaybeUninit × ObjWorld :=
  let w := VpType.overwrite .ref slot w
  let (ok, s, w) := NewCtor.run ⟨[], p.copyPanics⟩ w
  (ok, some s, w)

/-- `populate_stack_space`: src/value_param.rs:92, 120, 141, 161, 182, 223. `false` for a panic. -/
def VpType.populate : (t : VpType) → t.Val → Option t.Storage → ObjWorld → Bool × Option t.Storage × ObjWorld
  | .ref, p, slot, w => populateRef p slot w
  | .uniquePtr, p, slot, w => (true, some p, VpType.overwrite .uniquePtr slot w)
  | .pinBox, p, slot, w => (true, some p, VpType.overwrite .pinBox slot w)
  | .refUniquePtr, none, slot, w => (false, slot, w)
  | .refUniquePtr, some p, slot, w => populateRef p slot w
  | .refPinBox, p, slot, w => populateRef p slot w
  | .byNew, c, slot, w =>
    let w := VpType.overwrite .byNew slot w
    let (ok, s, w) := c.run w
    (ok, some s, w)

/-- A pointer to what is in memory which is taken to be filled: `none` if it is not, which is undefined behaviour. -/
def MaybeUninit.assumeInit : MaybeUninit → Option Nat
  | .uninit => none
  | .init o => some o

/-- `get_ptr` of the storage: src/value_param.rs:98, 125, 146, 167, 186, 229. `none` for a panic (or for memory which no constructor has filled). -/
def VpType.getPtr : (t : VpType) → t.Storage → Option Nat
  | .ref, s => MaybeUninit.assumeInit s
  | .uniquePtr, p => p
  | .pinBox, o => some o
  | .refUniquePtr, s => MaybeUninit.assumeInit s
  | .refPinBox, s => MaybeUninit.assumeInit s
  | .byNew, s => MaybeUninit.assumeInit s

/-- `drop_in_place(assume_init_mut())`: src/value_param.rs:105-109, 236-240. -/
def MaybeUninit.dropInPlace (s : MaybeUninit) (w : ObjWorld) : ObjWorld :=
  match s with
  | .uninit => w.log .destroyedUninit
  | .init o => w.destroy o

/-- `do_drop`: src/value_param.rs:83 (by default, nothing), 105, 171, 190, 236. -/
def VpType.doDrop : (t : VpType) → t.Storage → ObjWorld → ObjWorld
  | .ref, s, w => MaybeUninit.dropInPlace s w
  | .uniquePtr, _, w => w
  | .pinBox, _, w => w
  | .refUniquePtr, s, w => MaybeUninit.dropInPlace s w
  | .refPinBox, s, w => MaybeUninit.dropInPlace s w
  | .byNew, s, w => MaybeUninit.dropInPlace s w

/-- `ValueParamHandler`: src/value_param.rs:249-254. -/
structure VpHandler (t : VpType) where
  space : Option t.Storage

/-- src/value_param.rs:283-290. -/
def VpHandler.new (t : VpType) : VpHandler t := ⟨none⟩

/-- `ValueParamHandler::populate`: src/value_param.rs:263-266. -/
def VpHandler.populate {t : VpType} (h : VpHandler t) (p : t.Val) (w : ObjWorld) : Bool × VpHandler t × ObjWorld :=
  let (ok, s, w) := t.populate p h.space w
  (ok, ⟨s⟩, w)

/-- `ValueParamHandler::get_ptr`: src/value_param.rs:272-280. `none` for a panic. -/
def VpHandler.getPtr {t : VpType} (h : VpHandler t) : Option Nat :=
  match h.space with
  | none => none
  | some s => t.getPtr s

/-- Dropping a handler: src/value_param.rs:292-298, after which the compiler drops the field. -/
def VpHandler.drop {t : VpType} (h : VpHandler t) (w : ObjWorld) : ObjWorld :=
  match h.space with
  | none => w
  | some s => t.glue s (t.doDrop s w)

/-! ## Rvalue parameters -/

/-- What implements `RValueParam<T>`: src/rvalue_param.rs:39 `UniquePtr<T>`, :56 `Pin<Box<T>>`, :66 `Pin<MoveRef<T>>`. -/
inductive RvpType where
  | uniquePtr
  | pinBox
  | moveRef
deriving DecidableEq, Repr

/-- The values of the types. A `MoveRef` refers to an object, and destroys it when it is dropped. -/
def RvpType.Val : RvpType → Type
  | .uniquePtr => UniquePtr
  | .pinBox => Nat
  | .moveRef => Nat

/-- What the compiler does when a value of this type is dropped. -/
def RvpType.glue : (t : RvpType) → t.Val → ObjWorld → ObjWorld
  | .uniquePtr, none, w => w
  | .uniquePtr, some o, w => w.destroy o
  | .pinBox, o, w => w.destroy o
  | .moveRef, o, w => w.destroy o

/-- `get_ptr`: src/rvalue_param.rs:43, 57, 67. `none` for a panic. -/
def RvpType.getPtr : (t : RvpType) → t.Val → Option Nat
  | .uniquePtr, p => p
  | .pinBox, o => some o
  | .moveRef, o => some o

/-- `RValueParamHandler`: src/rvalue_param.rs:89-98. -/
structure RvpHandler (t : RvpType) where
  space : Option t.Val

/-- src/rvalue_param.rs:130-138. -/
def RvpHandler.new (t : RvpType) : RvpHandler t := ⟨none⟩

/-- Dropping a handler, which the compiler does by dropping the field. -/
def RvpHandler.drop {t : RvpType} (h : RvpHandler t) (w : ObjWorld) : ObjWorld :=
  match h.space with
  | none => w
  | some p => t.glue p w

/-- `RValueParamHandler::populate`: src/rvalue_param.rs:109-113. What the slot held is dropped. -/
def RvpHandler.populate {t : RvpType} (h : RvpHandler t) (p : t.Val) (w : ObjWorld) : RvpHandler t × ObjWorld :=
  (⟨some p⟩, h.drop w)

/-- `RValueParamHandler::get_ptr`: src/rvalue_param.rs:119-127. -/
def RvpHandler.getPtr {t : RvpType} (h : RvpHandler t) : Option Nat :=
  match h.space with
  | none => none
  | some p => t.getPtr p

/-! ## Either kind -/

/-- The type of an argument which is handed over in a slot. -/
inductive SlotType where
  | value (t : VpType)
  | rvalue (t : RvpType)
deriving DecidableEq, Repr

/-- The values of the types. -/
def SlotType.Val : SlotType → Type
  | .value t => t.Val
  | .rvalue t => t.Val

/-- Handlers for the types. -/
inductive Handler : SlotType → Type where
  | value {t : VpType} (h : VpHandler t) : Handler (.value t)
  | rvalue {t : RvpType} (h : RvpHandler t) : Handler (.rvalue t)

def Handler.new : (t : SlotType) → Handler t
  | .value t => .value (VpHandler.new t)
  | .rvalue t => .rvalue (RvpHandler.new t)

def Handler.populate : {t : SlotType} → Handler t → t.Val → ObjWorld → Bool × Handler t × ObjWorld
  | _, .value h, p, w => let (ok, h, w) := h.populate p w; (ok, .value h, w)
  | _, .rvalue h, p, w => let (h, w) := h.populate p w; (true, .rvalue h, w)

def Handler.getPtr : {t : SlotType} → Handler t → Option Nat
  | _, .value h => h.getPtr
  | _, .rvalue h => h.getPtr

def Handler.drop : {t : SlotType} → Handler t → ObjWorld → ObjWorld
  | _, .value h, w => h.drop w
  | _, .rvalue h, w => h.drop w

/-! ## The life of one handler -/

/-- What can be done with a handler. -/
inductive HandlerOp (t : SlotType) where
  | populate (p : t.Val)
  | getPtr

/-- What a value which is dropped without ever having been put in a slot does: the owning pointers destroy their object, a constructor drops what it
holds. -/
def SlotType.dropVal : (t : SlotType) → t.Val → ObjWorld → ObjWorld
  | .value .ref, _, w => w
  | .value .uniquePtr, none, w => w
  | .value .uniquePtr, some o, w => w.destroy o
  | .value .pinBox, o, w => w.destroy o
  | .value .refUniquePtr, _, w => w
  | .value .refPinBox, _, w => w
  | .value .byNew, c, w => w.destroyAll (NewCtor.holds c)
  | .rvalue t, p, w => t.glue p w

/-- Doing things with a handler until there are no more, or one panics, after which the rest of the values are dropped unused. -/
def HandlerOp.runAll {t : SlotType} : List (HandlerOp t) → Handler t → ObjWorld → Handler t × ObjWorld
  | [], h, w => (h, w)
  | .getPtr :: l, h, w =>
    match h.getPtr with
    | some _ => HandlerOp.runAll l h w
    | none => (h, HandlerOp.dropAll l w)
  | .populate p :: l, h, w =>
    match h.populate p w with
    | (true, h, w) => HandlerOp.runAll l h w
    | (false, h, w) => (h, HandlerOp.dropAll l w)
where
  HandlerOp.dropAll : List (HandlerOp t) → ObjWorld → ObjWorld
    | [], w => w
    | .getPtr :: l, w => HandlerOp.dropAll l w
    | .populate p :: l, w => HandlerOp.dropAll l (t.dropVal p w)

/-- The whole life of a handler: it is made, things are done with it, and it is dropped, be it at the end or by a panic. -/
def handlerLife {t : SlotType} (ops : List (HandlerOp t)) (w : ObjWorld) : ObjWorld :=
  let (h, w) := HandlerOp.runAll ops (Handler.new t) w
  h.drop w

/-! ## The handlers of a generated function -/

/-- An argument which is handed over in a slot. -/
structure SlotArg where
  type : SlotType
  val : type.Val

/-- A handler in the frame of a function. -/
structure SomeHandler where
  type : SlotType
  handler : Handler type

/-- Variables are dropped in the reverse of the order they were declared in; `hs` has the latest first. -/
def dropHandlers (hs : List SomeHandler) (w : ObjWorld) : ObjWorld := hs.foldl (fun w h => h.handler.drop w) w

/-- Arguments which were not used when the function panicked are dropped. -/
def dropArgs (l : List SlotArg) (w : ObjWorld) : ObjWorld := l.foldl (fun w a => a.type.dropVal a.val w) w

/-- The statements which are made for each by-value or rvalue argument (engine/src/conversion/codegen_rs/function_wrapper_rs.rs:115-151): a handler is made,
and the argument is put in it. `false` if one panics, in which case the rest of the arguments are not used. The handlers come out with the latest
first. -/
def populateAll : List SlotArg → List SomeHandler → ObjWorld → Bool × List SlotArg × List SomeHandler × ObjWorld
  | [], hs, w => (true, [], hs, w)
  | a :: l, hs, w =>
    match (Handler.new a.type).populate a.val w with
    | (true, h, w) => populateAll l (⟨a.type, h⟩ :: hs) w
    | (false, h, w) => (false, l, ⟨a.type, h⟩ :: hs, w)

/-- `get_ptr` of each handler, in the order of the arguments of the call. `none` if one panics. -/
def handlerPtrs : List SomeHandler → Option (List Nat)
  | [] => some []
  | h :: l => h.handler.getPtr.bind fun o => (handlerPtrs l).map (o :: ·)

/-- A call of a generated function, as far as the arguments go which are handed over in slots: each is put in a slot, then pointers to all are given to the
C++ function, unless there was a panic. At the end, or when there is a panic, the handlers are dropped, the latest first, and then the arguments which were not
used. -/
def wrapperFrame (args : List SlotArg) (w : ObjWorld) : ObjWorld :=
  match populateAll args [] w with
  | (true, _, hs, w) =>
    match handlerPtrs hs.reverse with
    | some ptrs => dropHandlers hs (w.log (.called ptrs))
    | none => dropHandlers hs w
  | (false, rest, hs, w) => dropArgs rest (dropHandlers hs w)

end Verif
