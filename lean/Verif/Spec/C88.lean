import Verif.Spec.C33
import Verif.Spec.C87
import Verif.Model.CdtWalk

/-! # Specification for C88: the triangles of a face in the output -/
namespace Mcut.Cdt
open Mcut.Hmesh Mcut.Preproc

/-- The triangles fill the polygon with the corners 0, …, `n - 1`, all in the direction of the polygon. -/
structure Fills (n : Nat) (out : List (List Nat)) : Prop where
  count : out.length + 2 = n
  corners : ∀ f ∈ out, GoodFace n f ∧ f.length = 3
  /-- No directed side occurs twice. -/
  once : (out.flatMap dirEdges).Nodup
  /-- The sides without the opposite side are the edges of the polygon. -/
  rim : ∀ a b, ((a, b) ∈ out.flatMap dirEdges ∧ (b, a) ∉ out.flatMap dirEdges) ↔ a < n ∧ b = (a + 1) % n

/-- The connected component: the faces `fs` over the vertices `pts`, as a mesh that mesh operations have given (any of them, in any order). -/
structure Component {P : Type} (d : P) (pts : List P) (fs : List (List Nat)) (cc : Mesh P) : Prop where
  good : ∀ f ∈ fs, GoodFace pts.length f
  mesh : Reachable d cc
  noRemoved : cc.vRem = [] ∧ cc.fRem = []
  vertices : cc.numVertices = pts.length
  places : ∀ v p, pts[v]? = some p → cc.pos v = p
  count : cc.numFaces = fs.length
  /-- The walk around a face begins with the end of its first edge. -/
  faces : ∀ i f, fs[i]? = some f → cc.verticesAroundFace i = f.rotate 1
  /-- There are no other edges, and no edge is there twice. -/
  edges : ∀ h, LiveH cc h → (∃ f, LiveF cc f ∧ h ∈ cc.fh f) ∨ ∃ f, LiveF cc f ∧ opposite h ∈ cc.fh f
  single : ∀ h h', LiveH cc h → LiveH cc h' → cc.target (opposite h) = cc.target (opposite h') → cc.target h = cc.target h' → h = h'

/-- Face `g` is across an edge of `f`. -/
def Across (f g : List Nat) : Prop := ∃ p ∈ dirEdges f, (p.2, p.1) ∈ dirEdges g

/-- A face across an edge of face `i` has no other edge between corners of face `i` than edges of face `i`. -/
def NoChord (fs : List (List Nat)) (i : Nat) : Prop :=
  ∀ f ∈ fs[i]?, ∀ g ∈ fs, Across f g → ∀ p ∈ dirEdges g, p.1 ∈ f → p.2 ∈ f → (p.2, p.1) ∈ dirEdges f

/-- The triangles of the output are those of the triangulator, in some order, with the numbers of the face; all of them as they are, or all of them turned around. -/
def SameTris (g : Nat → Nat) (ts : List Tri) (out : List (List Nat)) : Prop :=
  ∃ (kept : Bool) (order : List Nat), order.Perm (List.range ts.length) ∧ List.Forall₂ (fun k f => ∃ t, ts[k]? = some t ∧ f = if kept then [g (t.v 0), g (t.v 1), g (t.v 2)] else [g (t.v 2), g (t.v 1), g (t.v 0)]) order out

end Mcut.Cdt
