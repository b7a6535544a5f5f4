import Verif.Core

/-!
# Dependency-ordered iteration

engine/src/conversion/analysis/depth_first.rs. The trait `HasFieldsAndBases` (lines 19-27) is modelled
by the two functions `name` and `deps`.
-/

set_option autoImplicit false

namespace Verif
variable {α : Type}

/-- Outcome of one `next()` call: an item and the new queue, the end of the iteration, the panic about
a circular dependency (with the queue), or a state the code cannot get into (see `dfScan`). -/
inductive DfNext (α : Type) where
  | yield (a : α) (queue : List α)
  | done
  | panic (queue : List α)
  | unreachable

/-- The `while let` loop of `next()`: engine/src/conversion/analysis/depth_first.rs:51-72. The queue is
`after ++ before`, where `before` are the candidates already moved to the back. `first` is the name of
the candidate that was at the front when the call began. When all candidates have been moved the one
in front is the first one again, and the loop has panicked: hence `unreachable`. -/
def dfScan (name : α → QName) (deps : α → List QName) (yet : List QName) (first : Option QName)
    (before : List α) : List α → DfNext α
  | [] => if before.isEmpty then .done else .unreachable
  | c :: after =>
    if (deps c).any (· ∈ yet) then
      if ((after ++ (before ++ [c])).head?).map name = first then .panic (after ++ (before ++ [c]))
      else dfScan name deps yet first (before ++ [c]) after
    else .yield c (after ++ before)

/-- `DepthFirstIter::next`: engine/src/conversion/analysis/depth_first.rs:49-73, without the update of
`yet_to_do`. -/
def dfNext (name : α → QName) (deps : α → List QName) (yet : List QName) (queue : List α) :
    DfNext α :=
  dfScan name deps yet (queue.head?.map name) [] queue

/-- What consuming the whole iterator gives: the items in the order yielded, or a panic after having
yielded some, with the remaining queue. -/
inductive DfRun (α : Type) where
  | ok (l : List α)
  | panic (l : List α) (queue : List α)
  | unreachable
deriving Repr

/-- Puts an item in front of a result. -/
def DfRun.cons (a : α) : DfRun α → DfRun α
  | .ok l => .ok (a :: l)
  | .panic l q => .panic (a :: l) q
  | .unreachable => .unreachable

theorem dfScan_yield_length (name : α → QName) (deps : α → List QName) (yet : List QName)
    (first : Option QName) (before after : List α) (a : α) (q : List α)
    (h : dfScan name deps yet first before after = .yield a q) :
    q.length + 1 = before.length + after.length := by
  induction after generalizing before with
  | nil => unfold dfScan at h; split at h <;> cases h
  | cons c after ih =>
    unfold dfScan at h
    split at h
    · split at h
      · cases h
      · have := ih _ h
        simp at this ⊢; omega
    · cases h; simp; omega

/-- Consuming the iterator: each yield removes the item's name from `yet_to_do`
(engine/src/conversion/analysis/depth_first.rs:56-57). -/
def dfRun (name : α → QName) (deps : α → List QName) (yet : List QName) (queue : List α) : DfRun α :=
  match h : dfNext name deps yet queue with
  | .yield a q => (dfRun name deps (yet.filter (· ≠ name a)) q).cons a
  | .done => .ok []
  | .panic q => .panic [] q
  | .unreachable => .unreachable
termination_by queue.length
decreasing_by
  have := dfScan_yield_length _ _ _ _ _ _ _ _ h
  simp at this
  omega

/-- `fields_and_bases_first`: engine/src/conversion/analysis/depth_first.rs:31-37. -/
def fieldsAndBasesFirst (name : α → QName) (deps : α → List QName) (l : List α) : DfRun α :=
  dfRun name deps (l.map name) l

end Verif
