import Verif.Spec.C21

/-! Specification notions used in the statements of `Props/C24.lean`. -/
namespace Mcut.CC
open Mcut.Sched
variable {D F : Type}

/-- Spec: the triangles of one face of the component: the face itself if it is a triangle, else its triangulation, whose
local indices stand for the face's vertices. -/
def trianglesOf (c : Comp D F) (f : Nat) : List Nat :=
  if (c.faces.getD f []).length = 3 then c.faces.getD f [] else (c.tri f).map (fun i => (c.faces.getD f []).getD i 0)

/-- Spec: a triangulation `t` and its face map `m`: the faces in some order, each exactly once, each with all its
triangles, and for every triangle the client's face it belongs to. -/
def Corresponds (c : Comp D F) (t m : List Nat) : Prop :=
  ∃ fs : List Nat, fs.Perm (List.range c.faces.length) ∧ t = fs.flatMap (trianglesOf c) ∧
    m = fs.flatMap (fun f => List.replicate ((trianglesOf c f).length / 3) (userFace c (c.fmap.getD f 0)))

/-- Spec: a component with a triangle and a square that is triangulated, and a face map. -/
def triSquare : Comp Nat Nat :=
  { bigComp 2 with faces := [[0, 1, 2], [0, 2, 3, 4]], adj := [[1], [0]], fmap := [7, 5],
                   tri := fun _ => [0, 1, 2, 0, 2, 3], internalSrcF := 9 }

end Mcut.CC
