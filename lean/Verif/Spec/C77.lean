import Verif.Model.Split
import Verif.Spec.C76

/-! Specification notions used in the statements of `Props/C77.lean`. -/
namespace Mcut.Split
open Mcut.Hmesh
open Mcut.Trace (src Follows)
variable {P : Type}

/-- Spec: `h` belongs to one of the polygons. -/
def In (polys : List (List Nat)) (h : Nat) : Prop := ∃ p ∈ polys, h ∈ p

/-- Spec: `h` and `h'` end in the same vertex and are neighbours there, on the same side of the cut: the polygon of `h'` goes on with the opposite of `h`, which is not a cut
halfedge (halfedges below `numCut` are). -/
def Next (polys : List (List Nat)) (numCut h h' : Nat) : Prop := numCut ≤ h ∧ ∃ q ∈ polys, Follows q h' (opposite h)

/-- Spec: mesh `m1` and the polygons `polys1` are what becomes of the polygons `polys` of `m0` when the mesh is cut apart along the cut halfedges (those below `numCut`);
the vertices from `base` on are the intersection points. `ver` names the version of a halfedge, `orig` the vertex of "m0" that a vertex of "m1" is a copy of. -/
structure SplitOf (d : P) (m0 : Mesh P) (base numCut : Nat) (polys : List (List Nat)) (m1 : Mesh P) (polys1 : List (List Nat)) (ver orig : Nat → Nat) : Prop where
  /-- a valid mesh without faces, from which nothing has been removed -/
  mesh : Reachable d m1 ∧ m1.nF = 0 ∧ m1.vRem = [] ∧ m1.eRem = [] ∧ m1.fRem = []
  /-- the polygons are the same, made of the versions -/
  polygons : polys1 = polys.map (fun p => p.map ver)
  /-- all vertices of "m0" are still there, and the new ones are copies of intersection points -/
  kept : m0.nV ≤ m1.nV ∧ ∀ v, v < m0.nV → orig v = v
  copies : ∀ v, m0.nV ≤ v → v < m1.nV → base ≤ orig v ∧ orig v < m0.nV
  places : ∀ v, v < m1.nV → m1.pos v = m0.pos (orig v)
  /-- the version of a halfedge leads from a version of its source to a version of its target -/
  live : ∀ h, In polys h → LiveH m1 (ver h)
  ends : ∀ h, In polys h → orig (src m1 (ver h)) = src m0 h ∧ orig (m1.target (ver h)) = m0.target h
  /-- the polygons are closed -/
  closed : ∀ p ∈ polys, ∀ h n, Follows p h n → m1.target (ver h) = src m1 (ver n)
  /-- apart from the cut, polygons that were neighbours still are -/
  together : ∀ h, In polys h → In polys (opposite h) → numCut ≤ h → ver (opposite h) = opposite (ver h)
  /-- there are no other common edges: along the cut, each polygon has its own ones -/
  apart : ∀ h h', In polys h → In polys h' → edgeOf (ver h) = edgeOf (ver h') → h = h' ∨ (h' = opposite h ∧ numCut ≤ h)
  /-- two corners share their version of an intersection point exactly if they are neighbours on the same side of the cut -/
  points : ∀ h h', In polys h → In polys h' → base ≤ m0.target h → (m1.target (ver h) = m1.target (ver h') ↔ h = h' ∨ Next polys numCut h h' ∨ Next polys numCut h' h)
  /-- the other edges of "m1" are copies of edges of "m0" between original vertices -/
  others : ∀ k, LiveH m1 k → (∃ h, In polys h ∧ edgeOf (ver h) = edgeOf k) ∨
    ∃ h, LiveH m0 h ∧ src m1 k = src m0 h ∧ m1.target k = m0.target h ∧ src m0 h < base ∧ m0.target h < base

/-- Spec: where a walk can begin: the polygon has an edge between two original vertices, or exactly one original vertex. -/
def HasStart (m0 : Mesh P) (base : Nat) (p : List Nat) : Prop :=
  (∃ h ∈ p, src m0 h < base ∧ m0.target h < base) ∨ ∃ h ∈ p, m0.target h < base ∧ ∀ g ∈ p, m0.target g < base → g = h

end Mcut.Split
