import Verif.Model.Trace
import Verif.Spec.C70
import Mathlib.Logic.Relation
import Mathlib.Data.List.Rotate
import Mathlib.Data.List.Perm.Subperm

/-! Specification notions used in the statements of `Props/C71.lean`. -/
namespace Mcut.Trace
open Mcut.Hmesh Mcut.Registry Mcut.CutEdges Mcut.Boundary
variable {P : Type}

/-- Spec: `part` divides a list into the elements with a property and the others; their order is left open (`std::partition`). -/
def IsPartition (part : (Nat → Bool) → List Nat → List Nat × List Nat) : Prop :=
  ∀ p l, (part p l).1.Perm (l.filter p) ∧ (part p l).2.Perm (l.filter (fun x => !p x))

/-- Spec: where to go on from halfedge `h` of a face whose boundary halfedges are `E` and whose cut halfedges are `I`: from the boundary into the cut where there is one, from
the cut onto the boundary, along the cut inside the face, and back only where the cut ends inside the face. -/
structure Turn (m : Mesh P) (E I : List Nat) (h g : Nat) : Prop where
  mem : g ∈ E ∨ g ∈ I
  goesOn : src m g = m.target h
  into : h ∈ E → (∃ y ∈ I, src m y = m.target h) → g ∈ I
  outOf : h ∈ I → (∃ x ∈ E, src m x = m.target h) → g ∈ E
  straight : h ∈ I → (∃ y ∈ I, src m y = m.target h ∧ y ≠ opposite h) → g ≠ opposite h

/-- Spec: the list `p`, followed by its first element, is a chain. -/
def Cyclic (R : Nat → Nat → Prop) (p : List Nat) : Prop := (p ++ p.take 1).IsChain R

/-- Spec: no two edges have the same two ends. -/
def SimpleEdges (m : Mesh P) : Prop := ∀ a b v w, LiveE m a → LiveE m b → Joins m a v w → Joins m b v w → a = b

/-- Spec: what the stage starts from: the boundaries have been divided (C70), the corners of a face are different, the points of an edge are those of its registry entries,
and the cut edges of a face join intersection points of different edges, at most one of them in a point on an edge of the face, at most two in any point. -/
structure Given (d : P) (ps : Mesh P) (base : Nat) (pts : Nat → List Nat) (sort : Nat → Nat → List Nat → List Nat) (edges : List Nat) (c : CutEdges.St P) (st : Boundary.St P)
    (pieces : Nat → List Nat) (reg : List (Nat × Nat)) : Prop where
  ready : Ready d ps base pts c
  arranged : Arranges ps pts sort
  all : AllEdges ps edges
  divided : Divided d ps base pts sort edges c st pieces
  corners : ∀ f, LiveF ps f → (ps.verticesAroundFace f).Nodup
  points : ∀ e v, v ∈ pts e ↔ ∃ i g, v = base + i ∧ reg[i]? = some (e, g)
  cutLt : ∀ f, ∀ e ∈ c.faceEdges f, e < c.m0.nE
  cutNodup : ∀ f, (c.faceEdges f).Nodup
  cutEnds : ∀ f, ∀ e ∈ c.faceEdges f, ∀ v, EndsIn c.m0 e v → base ≤ v
  apart : ∀ f, ∀ e ∈ c.faceEdges f, (reg[c.m0.edgeVertex e 0 - base]?).map (·.1) ≠ (reg[c.m0.edgeVertex e 1 - base]?).map (·.1)
  one : ∀ f e v, OnEdge ps e f → v ∈ pts e → ∀ a ∈ c.faceEdges f, ∀ b ∈ c.faceEdges f, EndsIn c.m0 a v → EndsIn c.m0 b v → a = b
  two : ∀ f v, ∀ a ∈ c.faceEdges f, ∀ b ∈ c.faceEdges f, ∀ x ∈ c.faceEdges f, EndsIn c.m0 a v → EndsIn c.m0 b v → EndsIn c.m0 x v → a = b ∨ b = x ∨ a = x

/-- Spec: the vertices along a halfedge of "ps", in its direction (halfedge 1 of an edge leads from its first to its second end). -/
def pathOf (ps : Mesh P) (pts : Nat → List Nat) (sort : Nat → Nat → List Nat → List Nat) (h : Nat) : List Nat :=
  if h % 2 = 1 then Boundary.along ps pts sort (edgeOf h) else (Boundary.along ps pts sort (edgeOf h)).reverse

/-- Spec: `E` are the halfedges of "m0" around face `f` of "ps": one for each piece of its edges, leading through its corners and the points on its edges, in its direction,
and back to where they began. -/
structure BoundaryOf (ps m0 : Mesh P) (pts : Nat → List Nat) (sort : Nat → Nat → List Nat → List Nat) (pieces : Nat → List Nat) (f : Nat) (E : List Nat) : Prop where
  edges : (E.map edgeOf).Perm ((ps.fh f).flatMap (fun h => pieces (edgeOf h)))
  vertices : E.map (src m0) ~r (ps.fh f).flatMap (fun h => (pathOf ps pts sort h).dropLast)
  closed : E.map m0.target = (E.map (src m0)).rotate 1

/-- Spec: from the end of halfedge `h`, the cut halfedges `I` lead to the boundary `E`. -/
def Linked (m : Mesh P) (E I : List Nat) (h : Nat) : Prop :=
  ∃ x ∈ E, Relation.ReflTransGen (fun v w => ∃ g ∈ I, src m g = v ∧ m.target g = w) (m.target h) (src m x)

/-- Spec: the polygons `l` divide the face with boundary `E` along the cut halfedges `I`: every halfedge of the boundary, and every cut halfedge that is connected with it,
is in exactly one polygon, exactly once; these polygons have at least three halfedges and turn as they should at every corner. What else there is only consists of cut
halfedges that are not connected with the boundary. -/
def Divides (m : Mesh P) (E I : List Nat) (l : List (List Nat)) : Prop :=
  ∃ (A Q : List (List Nat)) (rest : List Nat), l = A ++ Q ∧ (A.flatten ++ rest).Perm (E ++ I) ∧ (∀ p ∈ A, 3 ≤ p.length ∧ Cyclic (Turn m E I) p) ∧
    Q.flatten.Subperm rest ∧ ∀ h ∈ rest, h ∈ I ∧ ¬ Linked m E I h

/-- Spec: the polygon `p` is a copy of face `f`. -/
structure CopyOf (ps m0 : Mesh P) (pieces : Nat → List Nat) (f : Nat) (p : List Nat) : Prop where
  edges : p.map edgeOf = (ps.fh f).flatMap (fun h => pieces (edgeOf h))
  sources : p.map (src m0) = (ps.fh f).map (src ps)
  targets : p.map m0.target = (ps.fh f).map ps.target

/-- Spec: `l` are polygons for face `f`: a copy if it has no cut edges, and otherwise a division of the face. -/
def FaceDone (ps : Mesh P) (pts : Nat → List Nat) (sort : Nat → Nat → List Nat → List Nat) (pieces : Nat → List Nat) (c : CutEdges.St P) (m0 : Mesh P) (f : Nat) (l : List (List Nat)) : Prop :=
  (c.faceEdges f = [] → ∃ p, l = [p] ∧ CopyOf ps m0 pieces f p) ∧
  (c.faceEdges f ≠ [] → ∃ E I, BoundaryOf ps m0 pts sort pieces f E ∧ I.Perm ((c.faceEdges f).flatMap (fun e => [halfedgeOf e 0, halfedgeOf e 1])) ∧ Divides m0 E I l)

/-- Spec: the tables list the polygons `poly f` of the faces, one face after the other, with the faces they come from, and which polygons come from an intersecting face of the
source mesh (the faces below `smF`), which from one of the cut mesh, and how many come from the source mesh. -/
structure Listed (smF : Nat) (c : CutEdges.St P) (faces : List Nat) (poly : Nat → List (List Nat)) (o : Out) : Prop where
  polygons : o.polygons = faces.flatMap poly
  faceOf : ∀ i, o.faceOf i = (faces.flatMap (fun f => (poly f).map (fun _ => f)))[i]?
  sm : o.sm.Pairwise (· < ·) ∧ ∀ i, i ∈ o.sm ↔ ∃ f, o.faceOf i = some f ∧ f < smF ∧ c.faceEdges f ≠ []
  cm : o.cm.Pairwise (· < ·) ∧ ∀ i, i ∈ o.cm ↔ ∃ f, o.faceOf i = some f ∧ smF ≤ f ∧ c.faceEdges f ≠ []
  smCount : o.smCount = ((faces.filter (fun f => decide (f < smF))).flatMap poly).length

end Mcut.Trace
