import Verif.Spec.C24

/-! Specification notions used in the statements of `Props/C23.lean`. -/
namespace Mcut.CC
open Mcut.Sched
variable {D F : Type}

/-- Spec: a list cut into triangles. -/
def triples : List Nat → List (List Nat)
  | x :: y :: z :: r => [x, y, z] :: triples r
  | _ => []

end Mcut.CC
