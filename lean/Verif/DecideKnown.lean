import Lean.Elab.Tactic
import Verif.KnownTypesLit

/-!
# Evaluating functions which consult the database of known types

The database is built by folding over a table, which the kernel evaluates slowly, once for every lookup.
The tactic `decide_known` proves a closed decidable statement after replacing each lookup by one in the
literal database, which is the same by `knownGet_eq_lit`. It generates a copy of each function involved
which takes the lookup as an argument; the kernel checks everything.
-/

set_option autoImplicit false

namespace Verif

/-- Lookup in the literal database. -/
def knownGetLit (q : QName) : Option TypeDetails := knownTypesLit.get q

theorem knownGet_fun : knownGet = knownGetLit := funext knownGet_eq_lit

namespace DecideKnown

open Lean Meta Elab Tactic

/-- Whether the value of a constant of this project uses the constant `b`, directly or not. -/
partial def uses (b c : Name) : StateRefT (NameMap Bool) MetaM Bool := do
  if c == b then return true
  unless (`Verif).isPrefixOf c do return false
  if let some r := (← get).find? c then return r
  modify (·.insert c false)
  let some (.defnInfo d) := (← getEnv).find? c | return false
  let mut r := false
  for u in d.value.getUsedConstants do
    if ← uses b u then r := true
  modify (·.insert c r)
  return r

/-- The name of the copy of a function. -/
def copyName (pre c : Name) : Name := pre ++ c

/-- Replace the constants which use `b` by their copies. -/
def subst (b pre : Name) (k : Expr) (e : Expr) : StateRefT (NameMap Bool) MetaM Expr := do
  let mut m : NameMap Name := {}
  for u in e.getUsedConstants do
    if u != b then
      if ← uses b u then m := m.insert u (copyName pre u)
  let m' := m
  return e.replace fun
    | .const d us =>
      if d == b then some k
      else match m'.find? d with
        | some n => some (mkApp (mkConst n us) k)
        | none => none
    | _ => none

/-- Generate the copy of a function, which takes `b` as an argument, and the proof that it is a copy. -/
partial def copy (b pre c : Name) : StateRefT (NameMap Bool) MetaM Unit := do
  let n := copyName pre c
  if (← getEnv).contains n then return
  let some (.defnInfo d) := (← getEnv).find? c | throwError "no definition {c}"
  for u in d.value.getUsedConstants do
    if u != b then
      if ← uses b u then copy b pre u
  let kt := (← getConstInfo b).type
  let us := d.levelParams.map mkLevelParam
  let (val, ty) ← withLocalDeclD `k kt fun k => do
    return (← mkLambdaFVars #[k] (← subst b pre k d.value), ← mkForallFVars #[k] d.type)
  addDecl <| .defnDecl { d with name := n, type := ty, value := val, all := [n] }
  -- `c = value`, then replace one constant after the other, then `value' = copy b`
  let lhs := mkConst c us
  let rhs := mkApp (mkConst n us) (mkConst b)
  let mut cur := d.value
  let mut pf ← mkExpectedTypeHint (← mkEqRefl lhs) (← mkEq lhs cur)
  for u in d.value.getUsedConstants do
    if u != b then
      if ← uses b u then
        let some (.const _ vs) := d.value.find? (·.isConstOf u) | throwError "no {u}"
        let lam ← withLocalDeclD `x (← inferType (mkConst u vs)) fun x => do
          mkLambdaFVars #[x] (cur.replace fun e => if e.isConstOf u then some x else none)
        let m := copyName pre u
        pf ← mkEqTrans pf (← mkCongrArg lam (mkConst (m ++ `eq) vs))
        cur := (mkApp lam (mkApp (mkConst m vs) (mkConst b))).headBeta
  pf ← mkEqTrans pf (← mkExpectedTypeHint (← mkEqRefl rhs) (← mkEq cur rhs))
  addDecl <| .thmDecl { name := n ++ `eq, levelParams := d.levelParams, type := ← mkEq lhs rhs, value := pf }

/-- Replace the constant `b` everywhere inside the functions used by the goal, given `eqn : b = b'`. -/
def replaceInGoal (b eqn : Name) (tag : Name) : TacticM Unit := withMainContext do
  let goal ← getMainGoal
  let main := (← getEnv).mainModule
  let pre := (match ← Term.getDeclName? with
    | some n => if n.components.getLast? == some `_example then main else n
    | none => main) ++ tag
  let mut g := goal
  let ty ← instantiateMVars (← goal.getType)
  let cs ← (do
    let mut r : Array Name := #[]
    for u in ty.getUsedConstants do
      if u != b then
        if ← uses b u then
          copy b pre u
          r := r.push u
    return r : StateRefT (NameMap Bool) MetaM (Array Name)).run' {}
  for c in cs do
    let t ← instantiateMVars (← g.getType)
    let some (.defnInfo d) := (← getEnv).find? c | throwError "no definition {c}"
    let us := d.levelParams.map fun _ => Level.one
    let n := copyName pre c
    let cty ← inferType (mkConst c us)
    let lam ← withLocalDeclD `x cty fun x => do
      mkLambdaFVars #[x] (t.replace fun e => if e.isConstOf c then some x else none)
    let h := mkConst (n ++ `eq) us
    let newTy := (mkApp lam (mkApp (mkConst n us) (mkConst b))).headBeta
    let new ← mkFreshExprSyntheticOpaqueMVar newTy
    let pf ← mkEqMPR (← mkCongrArg lam h) new
    g.assign pf
    g := new.mvarId!
  -- now the only occurrences of `b` are visible
  let t ← instantiateMVars (← g.getType)
  let kt := (← getConstInfo b).type
  let lam ← withLocalDeclD `x kt fun x => do
    mkLambdaFVars #[x] (t.replace fun e => if e.isConstOf b then some x else none)
  let some (_, _, b') := (← getConstInfo eqn).type.eq? | throwError "{eqn} is not an equation"
  let newTy := (mkApp lam b').headBeta
  let new ← mkFreshExprSyntheticOpaqueMVar newTy
  let pf ← mkEqMPR (← mkCongrArg lam (mkConst eqn)) new
  g.assign pf
  replaceMainGoal [new.mvarId!]

/-- Rewrite inside the definitions of the functions which the goal uses, with an equation whose left
side is a constant. -/
elab "rewrite_inside " e:ident : tactic => do
  let eqn ← realizeGlobalConstNoOverloadWithInfo e
  let some (_, .const b _, _) := (← getConstInfo eqn).type.eq? | throwError "{eqn} is not an equation"
  replaceInGoal b eqn (Name.mkSimple b.getString!)

/-- Prove a closed decidable statement, looking known types up in the literal database. -/
elab "decide_known" : tactic => do
  replaceInGoal ``knownGet ``knownGet_fun `known
  evalTactic (← `(tactic| decide +kernel))

end DecideKnown

end Verif
