import Verif.Model.CutEdges
import Verif.Spec.C63
import Verif.Spec.C61

/-! Specification notions used in the statements of `Props/C66.lean`. -/
namespace Mcut.CutEdges
open Mcut.Hmesh Mcut.Registry
variable {P : Type}

/-- Spec: edge `e` joins `v` and `w`. -/
def Joins (m : Mesh P) (e v w : Nat) : Prop := (m.edgeVertex e 0 = v ∧ m.edgeVertex e 1 = w) ∨ (m.edgeVertex e 0 = w ∧ m.edgeVertex e 1 = v)

/-- Spec: edge `e` has an end in `v`. -/
def EndsIn (m : Mesh P) (e v : Nat) : Prop := m.edgeVertex e 0 = v ∨ m.edgeVertex e 1 = v

/-- Spec: `m0` has the vertices of `m`, and `n` edges, which are numbered from 0; it has no faces. -/
structure EdgesOnly (m m0 : Mesh P) (n : Nat) : Prop where
  numV : m0.numVertices = m.numVertices
  pos : m0.pos = m.pos
  numE : m0.numEdges = n
  live : ∀ e, LiveE m0 e ↔ e < n
  noFaces : m0.nF = 0

/-- Spec: the tables describe the cut: there is exactly one edge between the two points of each pair of faces, and no other edge; the edges of a face are the edges between
the points of its pairs; the halfedges of a point are those that end in it. -/
structure CutGraph (m : Mesh P) (cut : Nat × Nat → List Nat) (st : St P) : Prop where
  mesh : EdgesOnly m st.m0 st.cutEdges.length
  numbers : st.cutEdges = List.range st.cutEdges.length
  only : ∀ e ∈ st.cutEdges, ∃ k v w, cut k = [v, w] ∧ Joins st.m0 e v w
  every : ∀ k v w, cut k = [v, w] → ∃ e ∈ st.cutEdges, Joins st.m0 e v w
  once : ∀ e ∈ st.cutEdges, ∀ e' ∈ st.cutEdges, ∀ v w, Joins st.m0 e v w → Joins st.m0 e' v w → e = e'
  noLoop : ∀ e ∈ st.cutEdges, st.m0.edgeVertex e 0 ≠ st.m0.edgeVertex e 1
  facesNodup : ∀ f, (st.faceEdges f).Nodup
  faces : ∀ f e, e ∈ st.faceEdges f ↔ e ∈ st.cutEdges ∧ ∃ k v w, cut k = [v, w] ∧ (f = k.1 ∨ f = k.2) ∧ Joins st.m0 e v w
  inNodup : ∀ v, (st.incoming v).Nodup
  incoming : ∀ v h, h ∈ st.incoming v ↔ edgeOf h ∈ st.cutEdges ∧ st.m0.target h = v

/-- Spec: every registry entry is an edge of some face of one mesh and a face of the other mesh. -/
def CrossTested (ps : Mesh P) (smF : Nat) (reg : List (Nat × Nat)) : Prop :=
  ∀ x ∈ reg, ∃ f, f < ps.numFaces ∧ Pairs.OnFace ps x.1 f ∧ x.2 < ps.numFaces ∧ Pairs.OtherSide smF f x.2

/-- Spec: two faces have at most one common edge. -/
def OneCommonEdge (ps : Mesh P) : Prop :=
  ∀ e e' g g', LiveE ps e → LiveE ps e' → g ≠ g' → OnEdge ps e g → OnEdge ps e g' → OnEdge ps e' g → OnEdge ps e' g' → e = e'

end Mcut.CutEdges
