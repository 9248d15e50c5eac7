import Verif.Model.Fragments
import Verif.Spec.C59
import Verif.Spec.C77

/-! Specification notions used in the statements of `Props/C78.lean`. -/
namespace Mcut.Split
open Mcut.Hmesh Mcut.Extract
variable {P : Type}

/-- Spec: polygons `f` and `g` hang together directly: they have a common original corner, or a common edge that is not a cut edge. -/
def Touch (m0 : Mesh P) (base numCut : Nat) (polys : List (List Nat)) (f g : Nat) : Prop :=
  ∃ p q h h', polys[f]? = some p ∧ polys[g]? = some q ∧ h ∈ p ∧ h' ∈ q ∧ ((m0.target h = m0.target h' ∧ m0.target h < base) ∨ (h' = opposite h ∧ numCut ≤ h))

/-- Spec: the polygons that hang together without crossing the cut. -/
def SameFragment (m0 : Mesh P) (base numCut : Nat) (polys : List (List Nat)) : Nat → Nat → Prop := Relation.EqvGen (Touch m0 base numCut polys)

/-- Spec: `c` is the fragment that consists of the polygons `fs` (numbers in `polys`); `m1`, `polys1`: the polygons cut apart; `face` names the input face of a polygon. -/
structure FragmentOf (d : P) (m0 : Mesh P) (base : Nat) (polys : List (List Nat)) (m1 : Mesh P) (polys1 : List (List Nat)) (orig : Nat → Nat) (face : Nat → Option Nat) (a : Args) (w : FragOptions)
    (fs : List Nat) (c : Mesh P × Info) : Prop where
  /-- it is a copy of these polygons; vertex `i` is a copy of vertex `vs[i]` of "m1"; the seam vertices are the intersection points and their copies; the vertex map names the
  original vertices, the face map the input faces -/
  copy : ∃ vs, Extract.CopyOf d m1 polys1 c.1 vs fs ∧ (∀ i : Nat, i ∈ c.2.seams ↔ ∃ v, vs[i]? = some v ∧ base ≤ orig v) ∧ c.2.seams.Nodup ∧
    (w.popV = true → c.2.vmap.length = vs.length ∧ ∀ i v : Nat, vs[i]? = some v → c.2.vmap[i]? = some (if orig v < base then some (orig v) else none)) ∧
    (w.popF = true → c.2.fmap.length = fs.length ∧ ∀ i f : Nat, fs[i]? = some f → c.2.fmap[i]? = face f)
  /-- face `i` is where polygon `fs[i]` was -/
  places : ∀ i f : Nat, ∀ l : List Nat, fs[i]? = some f → polys[f]? = some l → ((c.1.verticesAroundFace i).map c.1.pos) ~r (l.map (fun h => m0.pos (m0.target h)))
  /-- where it lies: where its recorded polygons do -/
  loc : if a.below = [] ∨ a.above = [] then c.2.loc = .undefined else Extract.sideOf a fs = some c.2.loc

/-- Spec: `frs` are the fragments: for each group of polygons that hang together, if it is wanted, there is exactly one fragment, and there are no others. -/
def FragmentsOf (d : P) (m0 : Mesh P) (base numCut : Nat) (polys : List (List Nat)) (m1 : Mesh P) (polys1 : List (List Nat)) (orig : Nat → Nat) (face : Nat → Option Nat) (a : Args) (w : FragOptions)
    (frs : List (Mesh P × Info)) : Prop :=
  ∃ groups : List (List Nat), List.Forall₂ (FragmentOf d m0 base polys m1 polys1 orig face a w) groups frs ∧ groups.Pairwise List.Disjoint ∧
    (∀ G ∈ groups, G ≠ [] ∧ Wanted a G ∧ ∀ f ∈ G, ∀ g, g ∈ G ↔ g < polys.length ∧ SameFragment m0 base numCut polys f g) ∧
    ∀ f, f < polys.length → ∀ G, (∀ g, g ∈ G ↔ g < polys.length ∧ SameFragment m0 base numCut polys f g) → Wanted a G → ∃ G' ∈ groups, f ∈ G'

/-- Spec: meshes that are made of vertices and faces only (as the loader and the merging do): from the empty mesh by adding vertices, and faces that are accepted. -/
inductive FromFaces (d : P) : Mesh P → Prop
  | empty : FromFaces d (Mesh.empty d)
  | vertex (m : Mesh P) (p : P) : FromFaces d m → FromFaces d (m.addVertex p).1
  | face (m : Mesh P) (vi : List Nat) : FromFaces d m → GoodPolygon m vi → (m.addFace vi).2 ≠ none → FromFaces d (m.addFace vi).1

/-- Spec: every edge is an edge of some face. -/
def NoLooseEdges (m : Mesh P) : Prop := ∀ h, LiveH m h → m.face h ≠ none ∨ m.face (opposite h) ≠ none

end Mcut.Split
