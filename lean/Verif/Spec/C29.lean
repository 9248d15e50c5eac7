import Verif.Lemmas.HmeshRemove

/-! Specification notions used in the statements of `Props/C29.lean`. -/
namespace Mcut.Hmesh
variable {P : Type}

/-- Spec: a tetrahedron with one face removed and reinserted. -/
def demoOps : List (Op Unit) :=
  [.addVertex (), .addVertex (), .addVertex (), .addVertex (), .addFace [0, 1, 2], .addFace [0, 3, 1], .addFace [1, 3, 2], .addFace [2, 3, 0],
   .removeFace 1, .addFace [3, 1, 0], .addVertex (), .addEdge 4 0, .removeEdge 6, .removeVertex 4]

end Mcut.Hmesh
