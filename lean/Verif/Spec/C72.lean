import Verif.Spec.C71
import Verif.Spec.Hmesh

/-! Specification notions used in the statements of `Props/C72.lean`. -/
namespace Mcut.Hmesh
variable {P : Type}

/-- Spec: meshes that arise from the empty mesh by legal operations, where an edge is only added between vertices for which `halfedge(v0, v1, true)` finds no halfedge. -/
inductive Careful (d : P) : Mesh P → Prop
  | empty : Careful d (Mesh.empty d)
  | step (m : Mesh P) (op : Op P) : Careful d m → op.Legal m → (∀ v0 v1, op = .addEdge v0 v1 → m.halfedge v0 v1 true = none) → Careful d (op.run m)

end Mcut.Hmesh
