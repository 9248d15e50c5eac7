import Verif.Lemmas.C35
import Verif.Lemmas.C37
import Verif.Props.C37
import Mathlib.Data.List.Perm.Basic
import Mathlib.Data.List.ProdSigma
import Mathlib.Data.List.Nodup

/-! Specification notions used in the statements of `Props/C36.lean`. -/
namespace Mcut.Bvh
open Mcut.Box
variable {α : Type*} [LinearOrder α]

/-- Spec: a complete processing order: on every level each node is processed exactly once (in any order). -/
def CompleteOrder (t : Nat) (order : Nat → List Nat) : Prop := ∀ l, l ≤ leafLevel t → (order l).Perm (List.range (nodesOnLevel t l))

end Mcut.Bvh
