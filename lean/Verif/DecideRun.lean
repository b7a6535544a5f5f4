import Verif.DecideKnown
import Verif.Pipeline

/-!
# Evaluating whole runs of the conversion

Three of the loops are defined by well-founded recursion, which the kernel does not evaluate. Each is equal to a
structurally recursive function; the tactic `decide_run` puts these in place of the loops, wherever they are used by
the functions in the goal, and then evaluates it as `decide_known` does. Nothing here is part of the model.
-/

set_option autoImplicit false

namespace Verif

/-- `riLoop` with a bound on the number of rounds. -/
def riFuel (valid : List QName) : Nat → List QName → FnApiVec → FnApiVec
  | 0, _, apis => apis
  | n + 1, ign, apis =>
    let r := riPass valid ign apis.apis
    if r.2.1 then riFuel valid n r.1 (ApiVec.fromIter r.2.2)
    else ApiVec.fromIter r.2.2

theorem riLoop_fuel (valid : List QName) : ∀ (n : Nat) (ign : List QName) (apis : FnApiVec),
    liveCount apis.apis < n → riLoop valid ign apis = riFuel valid n ign apis := by
  intro n
  induction n with
  | zero => intro _ _ h; omega
  | succ n ih =>
    intro ign apis h
    rw [riLoop, riFuel]
    split
    · rename_i hp
      refine ih _ _ ?_
      have h1 := (riPass_liveCount valid ign apis.apis).2 hp
      have h2 := liveCount_extend_le ({} : FnApiVec) (riPass valid ign apis.apis).2.2
      have h3 : liveCount ({} : FnApiVec).apis = 0 := rfl
      unfold ApiVec.fromIter
      omega
    · rfl


/-- `riLoop`, bounded by its measure. -/
def riLoopRun (valid ign : List QName) (apis : FnApiVec) : FnApiVec :=
  riFuel valid (liveCount apis.apis + 1) ign apis

theorem riLoop_run : riLoop = riLoopRun :=
  funext fun _ => funext fun _ => funext fun _ => riLoop_fuel _ _ _ _ (Nat.lt_succ_self _)

/-- `gcLoop`, of which a number of steps are unfolded. -/
def gcFuel : Nat → List QName → AMap QName FnApiVec → List QName → FnApiVec → FnApiVec
  | 0, todos, m, done, out => gcLoop todos m done out
  | _ + 1, [], _, _, out => out
  | n + 1, t :: rest, m, done, out =>
    if t ∈ done then gcFuel n rest m done out
    else
      match m.get? t with
      | some these => gcFuel n (rest ++ these.apis.flatMap FnApi.deps) (m.erase t) (t :: done)
          (out.append these).1
      | none => gcFuel n rest m (t :: done) out

theorem gcLoop_fuel : ∀ (n : Nat) (todos : List QName) (m : AMap QName FnApiVec) (done : List QName)
    (out : FnApiVec), gcLoop todos m done out = gcFuel n todos m done out := by
  intro n
  induction n with
  | zero => intros; rfl
  | succ n ih =>
    intro todos m done out
    cases todos with
    | nil => rw [gcLoop, gcFuel]
    | cons t rest =>
      rw [gcLoop, gcFuel]
      split
      · exact ih _ _ _ _
      · split
        · rename_i these hg
          rw [hg]; exact ih _ _ _ _
        · rename_i hg
          rw [hg]; exact ih _ _ _ _

/-- `gcLoop`, of which the first thousand steps are unfolded. -/
def gcLoopRun (todos : List QName) (m : AMap QName FnApiVec) (done : List QName) (out : FnApiVec) :
    FnApiVec := gcFuel 1000 todos m done out

theorem gcLoop_run : gcLoop = gcLoopRun :=
  funext fun _ => funext fun _ => funext fun _ => funext fun _ => gcLoop_fuel _ _ _ _ _

/-- `satisfyRequests`, of which a number of steps are unfolded. -/
def satFuel : Nat → ByValue → List QName → PodOutcome
  | 0, r, requests => satisfyRequests r requests
  | _ + 1, r, [] => .ok r
  | n + 1, r, q :: rest =>
    match r.get? q with
    | none => .err s!"Unable to make {q.display} POD because we never saw a struct definition"
    | some ⟨.unsafePod msg, _⟩ => .err msg
    | some ⟨.isPod, _⟩ => satFuel n r rest
    | some ⟨.safe, ds⟩ => satFuel n (r.insert q ⟨.isPod, ds⟩) (ds.reverse ++ rest)
    | some ⟨.alias t, ds⟩ =>
      match r.get? t with
      | none => .loops
      | some dt => satFuel n (r.insert q ⟨dt.state, ds⟩) rest

theorem satisfyRequests_fuel : ∀ (n : Nat) (r : ByValue) (l : List QName),
    satisfyRequests r l = satFuel n r l := by
  intro n
  induction n with
  | zero => intros; rfl
  | succ n ih =>
    intro r l
    cases l with
    | nil => rw [satisfyRequests, satFuel]
    | cons q rest =>
      rw [satisfyRequests, satFuel]
      split <;> rename_i hg <;> rw [hg] <;> dsimp only
      · exact ih _ _
      · exact ih _ _
      · split <;> rename_i hg' <;> rw [hg']
        exact ih _ _

/-- `satisfyRequests`, of which the first thousand steps are unfolded. -/
def satisfyRequestsRun (r : ByValue) (l : List QName) : PodOutcome := satFuel 1000 r l

theorem satisfyRequests_run : satisfyRequests = satisfyRequestsRun :=
  funext fun _ => funext fun _ => satisfyRequests_fuel _ _ _

/-- Prove a closed decidable statement about a run of the conversion. -/
macro "decide_run" : tactic => `(tactic|
  (rewrite_inside riLoop_run; rewrite_inside gcLoop_run; rewrite_inside satisfyRequests_run; decide_known))

end Verif
