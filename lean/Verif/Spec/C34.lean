import Verif.Spec.C33
import Mathlib.Logic.Relation

/-! Specification notions used in the statements of `Props/C34.lean`. -/
namespace Mcut.Preproc
open Mcut.Hmesh
variable {P : Type}

/-- Spec: an edge of the mesh from `u` to `v`. -/
def MeshEdge (m : Mesh P) (u v : Nat) : Prop := ∃ h, LiveH m h ∧ m.source h = some u ∧ m.target h = v

/-- Spec: two vertices are connected by a path of edges. -/
def Connected (m : Mesh P) : Nat → Nat → Prop := Relation.EqvGen (MeshEdge m)

/-- Spec: some face of the client's arrays has the side `u v`. -/
def Side (fs : List (List Nat)) (u v : Nat) : Prop := ∃ f ∈ fs, (u, v) ∈ dirEdges f

end Mcut.Preproc
