import Verif.Model.Stitch
import Verif.Spec.C77
import Verif.Spec.C80
import Mathlib.Data.List.Rotate

/-! Specification notions used in the statements of `Props/C83.lean`. -/
namespace Mcut.Stitch
open Mcut.Hmesh Mcut.Patches Mcut.Split Mcut.Trace
variable {P : Type}

/-- Spec: the polygons `polys'` and the patches `pats'` are the polygons `polys` and the patches `pats`, followed by reversed versions of the patches `ks`: a patch of the reversed polygons for each of
them. -/
structure WithReversed (polys pats : List (List Nat)) (ks : List Nat) (polys' pats' : List (List Nat)) : Prop where
  kept : ∀ j, j < polys.length → polys'[j]? = polys[j]?
  news : ∃ news, pats' = pats ++ news ∧ List.Forall₂ (fun k l' => ∃ l, pats[k]? = some l ∧
    List.Forall₂ (fun j j' => ∃ p, polys[j]? = some p ∧ polys'[j']? = some (p.map opposite).reverse) l l') ks news

/-- Spec: halfedge `h` belongs to a polygon of patch `k`. -/
def InSheet (polys pats : List (List Nat)) (k h : Nat) : Prop := ∃ l j p, pats[k]? = some l ∧ j ∈ l ∧ polys[j]? = some p ∧ h ∈ p

/-- Spec: mesh `m` with the polygons `polysS` is what becomes of the fragments — mesh `m1` with the polygons `polys1`, see `SplitOf` — when the patches `ks` of `pats` are stitched to them. The patches before
number `n` are those of the cut mesh as it is, the others are reversed. The vertices of "m0" before `base` are those of the input meshes, the halfedges before `numCut` are those of the cut.
`at' k` tells where the vertices of patch `k` are in `m`, `half k` where its halfedges are; `made` names, for each new polygon, the patch and the polygon; `faces` tells for each polygon which one of the
polygons that were traced it is; `cmv` is the table of the vertices that stand for vertices of the input meshes. -/
structure StitchedOf (d : P) (m0 : Mesh P) (base numCut n : Nat) (source polys pats : List (List Nat)) (ks : List Nat) (m1 : Mesh P) (polys1 : List (List Nat)) (ver orig : Nat → Nat)
    (m : Mesh P) (polysS : List (List Nat)) (faces cmv : List (Nat × Nat)) (at' half : Nat → Nat → Nat) (made : List (Nat × Nat)) : Prop where
  /-- a valid mesh without faces, from which nothing has been removed -/
  mesh : Reachable d m ∧ m.nF = 0 ∧ m.vRem = [] ∧ m.eRem = [] ∧ m.fRem = []
  /-- the vertices and edges of the fragments are there, unchanged -/
  kept : m1.nV ≤ m.nV ∧ (∀ v, v < m1.nV → m.pos v = m1.pos v) ∧ ∀ h, LiveH m1 h → LiveH m h ∧ src m h = src m1 h ∧ m.target h = m1.target h
  /-- the polygons of the patches are added, each exactly once -/
  all : made.Perm (ks.flatMap (fun k => (pats.getD k []).map (fun j => (k, j))))
  polygons : ∃ news, polysS = polys1 ++ news ∧ List.Forall₂ (fun x q => ∃ p r, polys[x.2]? = some p ∧ r ~r p ∧ q = r.map (half x.1)) made news
  faces : ∀ i j, (i, j) ∈ faces ↔ (i < polys1.length ∧ j = i) ∨ ∃ a x, i = polys1.length + a ∧ made[a]? = some x ∧ j = x.2
  /-- each with its corners, in the same places -/
  ends : ∀ k ∈ ks, ∀ h, InSheet polys pats k h → LiveH m (half k h) ∧ src m (half k h) = at' k (src m0 h) ∧ m.target (half k h) = at' k (m0.target h)
  places : ∀ k ∈ ks, ∀ h, InSheet polys pats k h → at' k (m0.target h) < m.nV ∧ m.pos (at' k (m0.target h)) = m0.pos (m0.target h)
  /-- a patch that is not reversed has the vertices of the cut mesh; a reversed one has copies of them, which are new and its own -/
  same : ∀ k ∈ ks, k < n → ∀ v, v < base → at' k v = v
  copies : ∀ k ∈ ks, n ≤ k → ∀ h, InSheet polys pats k h → m0.target h < base → m1.nV ≤ at' k (m0.target h) ∧
    ∀ k' ∈ ks, ∀ h', InSheet polys pats k' h' → at' k' (m0.target h') = at' k (m0.target h) → k' = k ∧ m0.target h' = m0.target h
  /-- the intersection points are those of the fragments -/
  points : ∀ k ∈ ks, ∀ h, InSheet polys pats k h → base ≤ m0.target h → base ≤ at' k (m0.target h) ∧ at' k (m0.target h) < m1.nV ∧ orig (at' k (m0.target h)) = m0.target h
  /-- along the cut, the patch is joined to the polygon of the source mesh that has the opposite halfedge: both use the same edge -/
  sealed : ∀ k ∈ ks, ∀ h, InSheet polys pats k h → h < numCut → In source (opposite h) ∧ half k h = opposite (ver (opposite h))
  /-- polygons of a patch that were neighbours still are -/
  together : ∀ k ∈ ks, ∀ h, InSheet polys pats k h → InSheet polys pats k (opposite h) → half k (opposite h) = opposite (half k h)
  /-- there are no other common edges -/
  apart : ∀ k ∈ ks, ∀ k' ∈ ks, ∀ h h', InSheet polys pats k h → InSheet polys pats k' h' → edgeOf (half k h) = edgeOf (half k' h') → k = k' ∧ (h = h' ∨ h' = opposite h ∧ numCut ≤ h)
  alone : ∀ k ∈ ks, ∀ h g, InSheet polys pats k h → In source g → edgeOf (half k h) = edgeOf (ver g) → h < numCut ∧ g = opposite h
  /-- there is at most one edge between two vertices -/
  simple : ∀ g g', LiveH m g → LiveH m g' → src m g = src m g' → m.target g = m.target g' → g = g'
  /-- what the table says about vertices is true -/
  entries : ∀ e ∈ cmv, e.2 < base ∧ (e.1 = e.2 ∨ m1.nV ≤ e.1) ∧ e.1 < m.nV ∧ m.pos e.1 = m0.pos e.2 ∧
    ∀ k ∈ ks, ∀ h, InSheet polys pats k h → at' k (m0.target h) = e.1 → m0.target h = e.2

end Mcut.Stitch
