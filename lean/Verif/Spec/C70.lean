import Verif.Model.Boundary
import Verif.Spec.C66

/-! Specification notions used in the statements of `Props/C70.lean`. -/
namespace Mcut.Boundary
open Mcut.Hmesh Mcut.Registry Mcut.CutEdges
variable {P : Type}

/-- Spec: the edges `es` of `m` lead through the vertices `vs`, in this order. -/
def Leads (m : Mesh P) (vs es : List Nat) : Prop :=
  vs.length = es.length + 1 ∧ ∀ (i e v w : Nat), es[i]? = some e → vs[i]? = some v → vs[i + 1]? = some w → Joins m e v w

/-- Spec: what the stage starts from: "m0" has the vertices of "ps" (below `base`), the intersection points (from `base` on), and edges, numbered from 0, but no faces; the
points of the edges of "ps" are intersection points; the tables for the points list the halfedges that end in them; a face with a point on one of its edges has an entry. -/
structure Ready (d : P) (ps : Mesh P) (base : Nat) (pts : Nat → List Nat) (c : CutEdges.St P) : Prop where
  psOk : Reachable d ps
  m0Ok : Reachable d c.m0
  vertices : c.m0.vRem = []
  edges : c.m0.eRem = []
  noFaces : c.m0.nF = 0
  old : ∀ v, LiveV ps v → v < base
  total : base ≤ c.m0.nV
  points : ∀ e, (pts e).Nodup ∧ ∀ v ∈ pts e, base ≤ v ∧ v < c.m0.nV
  incoming : ∀ v, (c.incoming v).Nodup ∧ ∀ h, h ∈ c.incoming v ↔ LiveH c.m0 h ∧ c.m0.target h = v
  cutEnds : ∀ h, LiveH c.m0 h → base ≤ c.m0.target h
  entries : ∀ e f, LiveE ps e → pts e ≠ [] → OnEdge ps e f → c.faceEdges f ≠ []

/-- Spec: `sort` arranges the points of an edge between its two ends. -/
def Arranges (ps : Mesh P) (pts : Nat → List Nat) (sort : Nat → Nat → List Nat → List Nat) : Prop :=
  ∀ e, LiveE ps e → 1 < (pts e).length → ∃ q, q.Perm (pts e) ∧ sort (ps.edgeVertex e 0) (ps.edgeVertex e 1) (pts e) = ps.edgeVertex e 0 :: (q ++ [ps.edgeVertex e 1])

/-- Spec: the vertices along an edge of "ps", from its first to its second end: the sorted ones if there are several points. -/
def along (ps : Mesh P) (pts : Nat → List Nat) (sort : Nat → Nat → List Nat → List Nat) (e : Nat) : List Nat :=
  if 1 < (pts e).length then sort (ps.edgeVertex e 0) (ps.edgeVertex e 1) (pts e) else ps.edgeVertex e 0 :: (pts e ++ [ps.edgeVertex e 1])

/-- Spec: the boundaries of all faces have been divided: `pieces e` are the new edges on edge `e` of "ps". -/
structure Divided (d : P) (ps : Mesh P) (base : Nat) (pts : Nat → List Nat) (sort : Nat → Nat → List Nat → List Nat) (edges : List Nat) (c : CutEdges.St P) (st : St P)
    (pieces : Nat → List Nat) : Prop where
  /-- "m0" is a well-formed mesh -/
  valid : Reachable d st.m0
  /-- no vertex and no face has been added, and no position changed -/
  same : st.m0.nV = c.m0.nV ∧ st.m0.vRem = [] ∧ st.m0.pos = c.m0.pos ∧ st.m0.nF = 0
  /-- the edges that were there before are unchanged -/
  kept : ∀ e, e < c.m0.nE → LiveE st.m0 e ∧ st.m0.edgeVertex e 0 = c.m0.edgeVertex e 0 ∧ st.m0.edgeVertex e 1 = c.m0.edgeVertex e 1
  /-- the new edges are numbered consecutively, and each is a piece of exactly one edge of "ps" -/
  numbers : (edges.flatMap pieces).Perm (List.range' c.m0.nE (st.m0.nE - c.m0.nE)) ∧ c.m0.nE ≤ st.m0.nE ∧ st.m0.eRem = []
  /-- the pieces of an edge lead from one end to the other through its points -/
  leads : ∀ e ∈ edges, Leads st.m0 (along ps pts sort e) (pieces e)
  /-- the table of divided edges -/
  chains : ∀ e ∈ edges, 1 < (pts e).length → st.chains e = pieces e
  /-- the table of undivided edges -/
  plain : ∀ e ∈ edges, pts e = [] → ∃ x, pieces e = [x] ∧ st.plain e = some x
  /-- the edges of an intersecting face: its cut edges and the pieces of its boundary -/
  faces : ∀ f, LiveF ps f → c.faceEdges f ≠ [] → (st.faceEdges f).Perm (c.faceEdges f ++ (ps.fh f).flatMap (fun h => pieces (edgeOf h)))
  /-- no face has become an intersecting face -/
  others : ∀ f, c.faceEdges f = [] → st.faceEdges f = []
  /-- the halfedges that end in an intersection point -/
  incoming : ∀ v, base ≤ v → (st.incoming v).Nodup ∧ ∀ h, h ∈ st.incoming v ↔ LiveH st.m0 h ∧ st.m0.target h = v
  /-- other vertices are not listed -/
  noOthers : ∀ v, v < base → st.incoming v = []

/-- Spec: `p` lies strictly between `o` and `q`, at the fraction `s` of the way. -/
def Between {K : Type} [Field K] [LinearOrder K] (o q p : Geom.V3 K) (s : K) : Prop :=
  0 < s ∧ s < 1 ∧ p.x = o.x + s * (q.x - o.x) ∧ p.y = o.y + s * (q.y - o.y) ∧ p.z = o.z + s * (q.z - o.z)

/-- Spec: `edges` lists the live edges of "ps", each once. -/
def AllEdges (ps : Mesh P) (edges : List Nat) : Prop := edges.Nodup ∧ ∀ e, e ∈ edges ↔ LiveE ps e

/-- Spec: `order` lists the edges with more than one point, each once. -/
def ManyPoints (ps : Mesh P) (pts : Nat → List Nat) (order : List Nat) : Prop := order.Nodup ∧ ∀ e, e ∈ order ↔ LiveE ps e ∧ 1 < (pts e).length

end Mcut.Boundary
