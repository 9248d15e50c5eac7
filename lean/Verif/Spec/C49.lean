import Verif.Props.C32

/-! Specification notions used in the statements of `Props/C49.lean`. -/
namespace Mcut.Hmesh
variable {P : Type}

/-- Spec: the edge is used by two faces: each of its two halfedges is listed by a live face. -/
def UsedTwice (m : Mesh P) (e : Nat) : Prop :=
  ∃ f g, LiveF m f ∧ LiveF m g ∧ halfedgeOf e 0 ∈ m.fh f ∧ halfedgeOf e 1 ∈ m.fh g

end Mcut.Hmesh
