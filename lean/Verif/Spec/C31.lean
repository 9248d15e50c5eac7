import Verif.Props.C29

/-! Specification notions used in the statements of `Props/C31.lean`. -/
namespace Mcut.Hmesh
variable {P : Type}

/-- Spec: five vertices and the triangle `0 1 2`. -/
def fiveOps : List (Op Unit) := [.addVertex (), .addVertex (), .addVertex (), .addVertex (), .addVertex (), .addFace [0, 1, 2]]

end Mcut.Hmesh
