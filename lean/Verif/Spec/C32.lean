import Verif.Props.C29
import Mathlib.Data.List.Perm.Subperm

/-! Specification notions used in the statements of `Props/C32.lean`. -/
namespace Mcut.Hmesh
variable {P : Type}

/-- Spec: the list of live elements in increasing order. -/
def liveList (size : Nat) (removed : List Nat) : List Nat := (List.range size).filter (fun x => decide (x ∉ removed))

end Mcut.Hmesh
