import Lean.Meta.Tactic.Simp.BuiltinSimprocs.Nat
/-! Evaluation of `Nat.testBit` on literals by the simplifier (checked by definitional equality). -/
namespace Verif

open Lean Meta Simp in
/-- Evaluate `Nat.testBit` on literals. -/
dsimproc reduceTestBit (Nat.testBit _ _) := fun e => do
  let_expr Nat.testBit a b := e | return .continue
  let some a ← Nat.fromExpr? a | return .continue
  let some b ← Nat.fromExpr? b | return .continue
  return .done (toExpr (a.testBit b))

end Verif
