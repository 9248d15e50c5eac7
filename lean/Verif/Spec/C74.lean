import Verif.Model.SeamMesh
import Verif.Spec.C59
import Verif.Spec.C60
import Verif.Spec.C73
import Verif.Spec.C34

/-! Specification notions used in the statements of `Props/C74.lean`. -/
namespace Mcut.Trace
open Mcut.Hmesh Mcut.Registry Mcut.CutEdges Mcut.Boundary Mcut.Extract
variable {P : Type}

/-- Spec: `c` is a mesh of all the polygons `polys`, with its data: its vertices are copies of the corners of the polygons, its faces are the polygons; its seam vertices are
the intersection points (the vertices from `base` on); its vertex map names the input vertex, and nothing for an intersection point; its face map names the face that the polygon was
traced in. -/
def SeamMesh (d : P) (m0 : Mesh P) (base : Nat) (polys : List (List Nat)) (face : Nat → Option Nat) (o : SeamOptions) (c : Mesh P × Info) : Prop :=
  ∃ vs fs, Extract.CopyOf d m0 polys c.1 vs fs ∧ (∀ f, f < polys.length → f ∈ fs) ∧ (∀ i, i ∈ c.2.seams ↔ ∃ v, vs[i]? = some v ∧ base ≤ v) ∧ c.2.seams.Nodup ∧
    (o.popV = true → c.2.vmap.length = vs.length ∧ ∀ i v : Nat, vs[i]? = some v → c.2.vmap[i]? = some (if v < base then some v else none)) ∧
    (o.popF = true → c.2.fmap.length = fs.length ∧ ∀ i f : Nat, fs[i]? = some f → c.2.fmap[i]? = face f)

/-- Spec: the cut edges of face `f` lead from `v` to `w`. -/
def CutPath (c : CutEdges.St P) (f v w : Nat) : Prop := Relation.ReflTransGen (fun a b => ∃ y ∈ c.faceEdges f, Joins c.m0 y a b) v w

/-- Spec: the vertices around face `f` of "ps", in its direction: its corners and the points on its edges. -/
def around (ps : Mesh P) (pts : Nat → List Nat) (sort : Nat → Nat → List Nat → List Nat) (f : Nat) : List Nat :=
  (ps.fh f).flatMap (fun h => (pathOf ps pts sort h).dropLast)

/-- Spec: the cut divides face `f` cleanly: it has no dead ends inside the face, every part of it leads to the boundary of the face, and no part of it crosses another one (from
one side of it to the other). -/
structure CleanCut (ps : Mesh P) (pts : Nat → List Nat) (sort : Nat → Nat → List Nat → List Nat) (c : CutEdges.St P) (f : Nat) : Prop where
  noDead : ∀ e ∈ c.faceEdges f, ∀ v, EndsIn c.m0 e v → v ∈ around ps pts sort f ∨ ∃ e' ∈ c.faceEdges f, e' ≠ e ∧ EndsIn c.m0 e' v
  anchored : ∀ e ∈ c.faceEdges f, ∀ v, EndsIn c.m0 e v → ∃ w ∈ around ps pts sort f, CutPath c f v w
  noCross : ∀ v B1 w B2, around ps pts sort f ~r (v :: B1) ++ (w :: B2) → CutPath c f v w → ∀ a ∈ B1, ∀ b ∈ B2, ¬ CutPath c f a b

/-- Spec: if face `f` is cut, then cleanly, and no edge of it has more than one point. -/
def CleanFace (ps : Mesh P) (pts : Nat → List Nat) (sort : Nat → Nat → List Nat → List Nat) (c : CutEdges.St P) (f : Nat) : Prop :=
  c.faceEdges f ≠ [] → CleanCut ps pts sort c f ∧ ∀ h ∈ ps.fh f, (pts (edgeOf h)).length ≤ 1

/-- Spec: the client's mesh is in one piece: any two corners of faces are connected by sides of faces. -/
def OneMesh (m : Mesh P) : Prop :=
  ∀ u v, (∃ p ∈ polygons m, u ∈ p) → (∃ p ∈ polygons m, v ∈ p) → Relation.EqvGen (Preproc.Side (polygons m)) u v

/-- Spec: no polygon passes through a vertex twice. -/
def NoRepeat (m0 : Mesh P) (polys : List (List Nat)) : Prop := ∀ p ∈ polys, (p.map m0.target).Nodup

/-- Spec: the polygons are connected by edges of the mesh. -/
def OnePiece (m0 : Mesh P) (polys : List (List Nat)) : Prop := ∀ f g, f < polys.length → g < polys.length → Extract.Linked m0 polys f g

end Mcut.Trace
