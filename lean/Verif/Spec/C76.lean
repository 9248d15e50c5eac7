import Verif.Model.Sides
import Verif.Spec.C73
import Verif.Spec.C69

/-! Specification notions used in the statements of `Props/C76.lean`. -/
namespace Mcut.Trace
open Mcut.Hmesh Mcut.Registry Mcut.CutEdges Mcut.Boundary
variable {P : Type}

/-- Spec: halfedge `x` of "m0" is a part of halfedge `h` of "ps", and ends in a point in which `h` pierces face `g`. -/
structure Arrives (ps m0 : Mesh P) (base : Nat) (pts : Nat → List Nat) (sort : Nat → Nat → List Nat → List Nat) (pieces : Nat → List Nat) (reg : List (Nat × Nat)) (h g x : Nat) : Prop where
  part : PartOf ps m0 pts sort pieces h x
  point : base ≤ m0.target x ∧ reg[m0.target x - base]? = some (edgeOf h, g)

/-- Spec: halfedge `x` of "m0" is a part of halfedge `h` of "ps", and begins in a point in which `h` pierces face `g`. -/
structure Departs (ps m0 : Mesh P) (base : Nat) (pts : Nat → List Nat) (sort : Nat → Nat → List Nat → List Nat) (pieces : Nat → List Nat) (reg : List (Nat × Nat)) (h g x : Nat) : Prop where
  part : PartOf ps m0 pts sort pieces h x
  point : base ≤ src m0 x ∧ reg[src m0 x - base]? = some (edgeOf h, g)

/-- Spec: in polygon `p`, halfedge `x` is followed by `y`. -/
def Follows (p : List Nat) (x y : Nat) : Prop := ∃ k, p[k]? = some x ∧ p[(k + 1) % p.length]? = some y

/-- Spec: every intersection point on an edge of a face is the end of a cut edge of the face, the ends of cut edges are in `reg`, and `reg` names an edge of one mesh and a face of the other one (faces below `smF` and
vertices below `smV` are those of the source mesh; both ends of an edge are of the same mesh). -/
structure Crossing (ps : Mesh P) (smV smF base : Nat) (pts : Nat → List Nat) (c : CutEdges.St P) (reg : List (Nat × Nat)) : Prop where
  ends : ∀ e f v, LiveE ps e → OnEdge ps e f → v ∈ pts e → ∃ a ∈ c.faceEdges f, EndsIn c.m0 a v
  known : ∀ f, ∀ e ∈ c.faceEdges f, ∀ v, EndsIn c.m0 e v → (reg[v - base]?).isSome
  sided : ∀ r ∈ reg, Sided ps smV smF r.1 r.2
  vertex : ∀ r ∈ reg, smV ≤ ps.edgeVertex r.1 0 ↔ CutEdge ps smF r.1

/-- Spec: polygon `i` comes from a face of the source mesh, and a part of its boundary ends in a point where it passes down through a face of the cut mesh. -/
def IsAbove (ps m0 : Mesh P) (smF base : Nat) (pts : Nat → List Nat) (sort : Nat → Nat → List Nat → List Nat) (pieces : Nat → List Nat) (reg : List (Nat × Nat)) (down : Nat → Nat → Prop) (o : Out) (i : Nat) : Prop :=
  ∃ f p x h g, o.faceOf i = some f ∧ f < smF ∧ o.polygons[i]? = some p ∧ x ∈ p ∧ Arrives ps m0 base pts sort pieces reg h g x ∧ down h g

/-- Spec: polygon `i` comes from a face of the source mesh, and a part of its boundary begins in a point where it has passed down through a face of the cut mesh. -/
def IsBelow (ps m0 : Mesh P) (smF base : Nat) (pts : Nat → List Nat) (sort : Nat → Nat → List Nat → List Nat) (pieces : Nat → List Nat) (reg : List (Nat × Nat)) (down : Nat → Nat → Prop) (o : Out) (i : Nat) : Prop :=
  ∃ f p x h g, o.faceOf i = some f ∧ f < smF ∧ o.polygons[i]? = some p ∧ x ∈ p ∧ Departs ps m0 base pts sort pieces reg h g x ∧ down h g

/-- Spec: polygons `i` and `j` meet in a cut edge which begins in a point where the boundary of their face passes down through a face of the cut mesh, from `i` to `j`. -/
def Meet (ps m0 : Mesh P) (smF base : Nat) (pts : Nat → List Nat) (sort : Nat → Nat → List Nat → List Nat) (pieces : Nat → List Nat) (reg : List (Nat × Nat)) (c : CutEdges.St P) (down : Nat → Nat → Prop)
    (o : Out) (i j : Nat) : Prop :=
  ∃ f p q x y z h g, o.faceOf i = some f ∧ o.faceOf j = some f ∧ f < smF ∧ o.polygons[i]? = some p ∧ o.polygons[j]? = some q ∧ Follows p x y ∧ Follows q (opposite y) z ∧
    edgeOf y ∈ c.faceEdges f ∧ Arrives ps m0 base pts sort pieces reg h g x ∧ Departs ps m0 base pts sort pieces reg h g z ∧ down h g

/-- Spec: halfedge `h` passes through the plane of triangle `g` from its front, where its corners turn to the left, to its back. -/
def PassesDown {K : Type} [Field K] [LinearOrder K] (ps : Mesh (Box.V3 K)) (h g : Nat) : Prop :=
  ∃ a b c, Whole.corners ps g = [a, b, c] ∧ 0 < Geom.dot (Geom.cross (Geom.sub3 b a) (Geom.sub3 c a)) (Geom.sub3 (Whole.pt (ps.pos (src ps h))) a) ∧
    Geom.dot (Geom.cross (Geom.sub3 b a) (Geom.sub3 c a)) (Geom.sub3 (Whole.pt (ps.pos (ps.target h))) a) < 0

end Mcut.Trace
