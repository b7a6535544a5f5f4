/-!
# Statements which may need `unsafe`

The end of engine/src/conversion/codegen_rs/mod.rs: the statements of a generated function, and how they are put in
`unsafe` blocks.
-/

set_option autoImplicit false

namespace Verif

/-- `MaybeUnsafeStmt`: engine/src/conversion/codegen_rs/mod.rs:1108-1119. -/
inductive MaybeUnsafe (α : Type) where
  | normal (stmt : α)
  | needsUnsafe (stmt : α)
  | binary (inSafeContext inUnsafeContext : α)

/-- `MaybeUnsafeStmt::maybe_unsafe`: engine/src/conversion/codegen_rs/mod.rs:1130-1136. -/
def MaybeUnsafe.maybe {α : Type} (stmt : α) (needsUnsafe : Bool) : MaybeUnsafe α :=
  if needsUnsafe then .needsUnsafe stmt else .normal stmt

/-- A piece of the tokens put out: a statement as it is, or an `unsafe { … }` block of statements. -/
inductive Frag (α : Type) where
  | plain (stmt : α)
  | block (stmts : List α)
deriving DecidableEq, Repr

/-- The local variables `currently_unsafe_list` and `output`: engine/src/conversion/codegen_rs/mod.rs:1163-1164. -/
structure TokState (α : Type) where
  unsafeList : Option (List α) := none
  out : List (Frag α) := []

/-- Putting out the statements which wait for an `unsafe` block:
engine/src/conversion/codegen_rs/mod.rs:1178-1184,1189-1195. -/
def TokState.flush {α : Type} (s : TokState α) : TokState α :=
  match s.unsafeList with
  | some l => ⟨none, s.out ++ [.block l]⟩
  | none => s

/-- One turn of the loop: engine/src/conversion/codegen_rs/mod.rs:1165-1188. -/
def TokState.step {α : Type} (s : TokState α) : MaybeUnsafe α → TokState α
  | .needsUnsafe x => { s with unsafeList := some (s.unsafeList.getD [] ++ [x]) }
  | .normal x | .binary x _ => ⟨s.flush.unsafeList, s.flush.out ++ [.plain x]⟩

/-- What is put out for a statement where everything is `unsafe` already:
engine/src/conversion/codegen_rs/mod.rs:1151-1158. -/
def MaybeUnsafe.inUnsafe {α : Type} : MaybeUnsafe α → α
  | .normal x | .needsUnsafe x | .binary _ x => x

/-- `maybe_unsafes_to_tokens`: engine/src/conversion/codegen_rs/mod.rs:1146-1200. -/
def maybeUnsafesToTokens {α : Type} (items : List (MaybeUnsafe α)) (alreadyUnsafe : Bool) : List (Frag α) :=
  if alreadyUnsafe then items.map fun i => .plain i.inUnsafe
  else (items.foldl TokState.step {}).flush.out

end Verif
