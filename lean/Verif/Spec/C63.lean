import Verif.Model.Registry

/-! Specification notions used in the statements of `Props/C63.lean`. -/
namespace Mcut.Registry
open Mcut.Hmesh
variable {P : Type}

/-- Spec: face `g` is on one of the two sides of edge `e`. -/
def OnEdge (ps : Mesh P) (e g : Nat) : Prop := ps.face (halfedgeOf e 0) = some g ∨ ps.face (halfedgeOf e 1) = some g

/-- Spec: edge `e` has a side without face. -/
def BorderEdge (ps : Mesh P) (e : Nat) : Prop := ps.face (halfedgeOf e 0) = none ∨ ps.face (halfedgeOf e 1) = none

/-- Spec: edge `e` belongs to the cut mesh (the faces from `smF` on). -/
def CutEdge (ps : Mesh P) (smF e : Nat) : Prop := ∃ g, OnEdge ps e g ∧ smF ≤ g

/-- Spec: an edge and a face of different meshes: the edge has one or two different faces, its faces and its first end point belong to one of the meshes, the face
belongs to the other one. -/
structure Sided (ps : Mesh P) (smV smF e f : Nat) : Prop where
  used : ∃ g, OnEdge ps e g
  two : ∀ g, ¬ (ps.face (halfedgeOf e 0) = some g ∧ ps.face (halfedgeOf e 1) = some g)
  one : ∀ g, OnEdge ps e g → (smF ≤ g ↔ CutEdge ps smF e)
  vertex : smV ≤ (ps.source (halfedgeOf e 0)).getD 0 ↔ CutEdge ps smF e
  face : smF ≤ f ↔ ¬ CutEdge ps smF e

/-- Spec: `l` lists, in increasing order, the numbers (from `base` on) of the registry entries with property `p`. -/
def Lists (base : Nat) (reg : List (Nat × Nat)) (p : Nat → Nat → Prop) (l : List Nat) : Prop :=
  l.Pairwise (· < ·) ∧ ∀ v, v ∈ l ↔ ∃ i e f, v = base + i ∧ reg[i]? = some (e, f) ∧ p e f

/-- Spec: the tables say which edge and face each point comes from, and conversely list the points of each edge, each pair of a source mesh face and a cut mesh face,
each face, and those on border edges of the cut mesh. `R`: the points with their edges and faces, numbered from `base` on. -/
structure Recorded (ps : Mesh P) (smF base : Nat) (R : List (Nat × Nat × P)) (t : Tables P) : Prop where
  pts : t.pts = R.map (fun x => x.2.2)
  reg : t.reg = R.map (fun x => (x.1, x.2.1))
  border : Lists base t.reg (fun e _ => CutEdge ps smF e ∧ BorderEdge ps e) t.border
  edges : ∀ e0, Lists base t.reg (fun e _ => e = e0) (t.edges e0)
  cut : ∀ s c, Lists base t.reg (fun e f => s < smF ∧ smF ≤ c ∧ ((OnEdge ps e s ∧ f = c) ∨ (OnEdge ps e c ∧ f = s))) (t.cut (s, c))
  faces : ∀ g, Lists base t.reg (fun e f => f = g ∨ OnEdge ps e g) (t.faces g)
  partialCut : t.partialCut = true ↔ ∃ x ∈ t.reg, CutEdge ps smF x.1 ∧ BorderEdge ps x.1

/-- Spec: the points found, in the order of the candidate pairs. -/
def hits (test : Nat → Nat → Outcome P) (cand : List (Nat × List Nat)) : List (Nat × Nat × P) :=
  cand.flatMap (fun x => x.2.filterMap (fun f => match test x.1 f with
    | .point p => some (x.1, f, p)
    | _ => none))

/-- Spec: some candidate pair violates general position. -/
def Violated (test : Nat → Nat → Outcome P) (cand : List (Nat × List Nat)) : Prop := ∃ x ∈ cand, ∃ f ∈ x.2, test x.1 f = .violation

end Mcut.Registry
