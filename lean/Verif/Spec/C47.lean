import Verif.Model.Morton
import Mathlib.Algebra.Order.Floor.Ring
import Mathlib.Data.Rat.Floor
import Mathlib.Tactic.Linarith

/-! Specification notions used in the statements of `Props/C47.lean`. -/
namespace Mcut.Morton

/-- Spec: spread the bits of a number: bit `i` moves to position `3i`. -/
def spread : Nat → Nat → Nat
  | 0, _ => 0
  | n + 1, v => v % 2 + 8 * spread n (v / 2)

end Mcut.Morton
