import Verif.Spec.C21

/-! Specification notions used in the statements of `Props/C22.lean`. -/
namespace Mcut.CC
open Mcut.Sched
variable {D F : Type}

/-- Spec: every store lies inside the first `bytes` bytes. -/
def Inside (bytes : Nat) (th : List (List (Write D F))) : Prop := ∀ t ∈ th, ∀ w ∈ t, w.1 + w.2.size ≤ bytes

/-- Spec: the flags whose copying loops check the caller's size before every store. -/
def Checked (reversed : Bool) : Flag → Prop
  | .type => True
  | .fragLocation => True
  | .patchLocation => True
  | .sealType => True
  | .origin => True
  | .seamSeq => True
  | .vertexMap => True
  | .faceMap => True
  | .tri => reversed = false
  | .triMap => True
  | .other => True
  | _ => False

/-- Spec: a component with two triangles. -/
def twoTris : Comp Nat Nat :=
  { bigComp 2 with verts := [(0, 0, 0), (1, 0, 0), (0, 1, 0), (0, 0, 1)], faces := [[0, 1, 2], [0, 2, 3]], adj := [[1], [0]],
                   edges := [(0, 1), (1, 2), (2, 0), (2, 3), (3, 0)], seam := [0, 2] }

/-- Spec: one thread, the prefix sums, and all stores of the triangulation. -/
def soloEnv (flag : Flag) (rev : Bool) : Env := ⟨1, rev, fun _ => if flag = .adj then [1, 2] else [3, 6], [(0, 2)], [(0, 0), (1, 1), (2, 2), (3, 0), (4, 2), (5, 3)], []⟩

/-- Spec: `n` vertices. -/
def manyVerts (n : Nat) : Comp Nat Nat := { bigComp 1 with verts := List.replicate n (0, 0, 0) }

end Mcut.CC
