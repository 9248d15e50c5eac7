import Verif.Model.HalfPoly
import Verif.Spec.C71

/-! Specification notions used in the statements of `Props/C73.lean`. -/
namespace Mcut.Trace
open Mcut.Hmesh Mcut.Registry Mcut.CutEdges Mcut.Boundary
variable {P : Type}

/-- Spec: halfedge `x` of "m0" is a part of halfedge `h` of "ps", in the same direction. -/
def PartOf (ps m0 : Mesh P) (pts : Nat → List Nat) (sort : Nat → Nat → List Nat → List Nat) (pieces : Nat → List Nat) (h x : Nat) : Prop :=
  LiveH ps h ∧ LiveH m0 x ∧ edgeOf x ∈ pieces (edgeOf h) ∧ [src m0 x, m0.target x] <:+: pathOf ps pts sort h

/-- Spec: from the end of `x`, the cut edges of face `f` lead to a point on an edge of the face. -/
def Anchored (ps : Mesh P) (pts : Nat → List Nat) (c : CutEdges.St P) (m0 : Mesh P) (f x : Nat) : Prop :=
  ∃ v e, Relation.ReflTransGen (fun a b => ∃ y ∈ c.faceEdges f, Joins c.m0 y a b) (m0.target x) v ∧ LiveE ps e ∧ OnEdge ps e f ∧ v ∈ pts e

/-- Spec: the table `T` is the table of the users of the halfedges, which are as they should be: no polygon uses a halfedge twice; what is part of a halfedge of "ps" is used
by exactly one polygon, which comes from the face of that halfedge, and by none if there is no such face; a cut halfedge is only used by polygons from the two faces that it
lies in, one of the source mesh and one of the cut mesh, by at most one polygon of each, and by exactly one if it is connected with the boundary of the face. -/
structure Used (ps : Mesh P) (smF : Nat) (pts : Nat → List Nat) (sort : Nat → Nat → List Nat → List Nat) (pieces : Nat → List Nat) (c : CutEdges.St P) (m0 : Mesh P) (o : Out)
    (T : Nat → List Nat) : Prop where
  simple : ∀ p ∈ o.polygons, p.Nodup
  table : ∀ x, (T x).Pairwise (· < ·) ∧ ∀ i, i ∈ T x ↔ ∃ p, o.polygons[i]? = some p ∧ x ∈ p
  free : ∀ h x, PartOf ps m0 pts sort pieces h x → ps.face h = none → T x = []
  side : ∀ h x f, PartOf ps m0 pts sort pieces h x → ps.face h = some f → ∃ i, T x = [i] ∧ o.faceOf i = some f
  cut : ∀ x, edgeOf x < c.m0.nE → ∀ i ∈ T x, ∃ f, o.faceOf i = some f ∧ edgeOf x ∈ c.faceEdges f
  once : ∀ x, ∀ i ∈ T x, ∀ j ∈ T x, ∀ f g, o.faceOf i = some f → o.faceOf j = some g → (f < smF ↔ g < smF) → i = j
  whole : ∀ x f, edgeOf x ∈ c.faceEdges f → LiveF ps f → Anchored ps pts c m0 f x → ∃ i ∈ T x, o.faceOf i = some f
  few : ∀ x, (T x).length ≤ 2

end Mcut.Trace
