import Verif.Spec.C78
import Verif.Spec.C83

/-! Specification notions used in the statements of `Props/C84.lean`. -/
namespace Mcut.Stitch
open Mcut.Hmesh Mcut.Extract Mcut.Split
variable {P : Type}

/-- Spec: `c` is the sealed fragment that consists of the polygons `fs` (numbers in `polysS`); `m`, `polysS`: the fragments with the patches stitched to them, see `StitchedOf`; `traced`: the polygons that were
traced, the first `smCount` of them in the source mesh; `faceOf` names the input face of a polygon that was traced; the vertices before `base` are those of the input meshes, those before `nV1` are vertices of the fragments. -/
structure SealedOf (d : P) (m0 : Mesh P) (base nV1 n smCount : Nat) (traced : List (List Nat)) (faceOf : Nat → Option Nat) (polys pats : List (List Nat)) (ks : List Nat) (at' : Nat → Nat → Nat)
    (made : List (Nat × Nat)) (m : Mesh P) (polysS : List (List Nat)) (a : Args) (w : FragOptions) (fs : List Nat) (c : Mesh P × Info) : Prop where
  /-- it is a copy of these polygons; vertex `i` is a copy of vertex `vs[i]`; the seam vertices are the intersection points and their copies -/
  copy : ∃ vs, Extract.CopyOf d m polysS c.1 vs fs ∧ (∀ i : Nat, i ∈ c.2.seams ↔ ∃ v, vs[i]? = some v ∧ base ≤ v ∧ v < nV1) ∧ c.2.seams.Nodup ∧
    /- the vertex map: an input vertex is itself; an intersection point is "undefined"; a vertex of a reversed patch is the vertex of the cut mesh of which it is a copy, or "undefined" -/
    (w.popV = true → c.2.vmap.length = vs.length ∧ ∀ i v : Nat, vs[i]? = some v → ∃ x, c.2.vmap[i]? = some x ∧ (v < base → x = some v) ∧ (base ≤ v → v < nV1 → x = none) ∧
      ∀ u, x = some u → u < base ∧ c.1.pos i = m0.pos u ∧ ∀ k ∈ ks, ∀ h, InSheet polys pats k h → at' k (m0.target h) = v → m0.target h = u)
  /-- a face that comes from the source mesh is where the polygon was; the face map names its input face -/
  source : ∀ i f : Nat, fs[i]? = some f → f < smCount → ∃ p, traced[f]? = some p ∧ ((c.1.verticesAroundFace i).map c.1.pos) ~r (p.map (fun h => m0.pos (m0.target h))) ∧
    (w.popF = true → c.2.fmap.length = fs.length ∧ c.2.fmap[i]? = faceOf f)
  /-- a face that comes from the cut mesh is where a polygon of the cut mesh was, with the same orientation or, if it is in a reversed patch, with the opposite one; the face map names its input face -/
  patch : ∀ i f : Nat, fs[i]? = some f → smCount ≤ f → ∃ k j t p, made[f - smCount]? = some (k, j) ∧ smCount ≤ t ∧ traced[t]? = some p ∧
    (k < n → ((c.1.verticesAroundFace i).map c.1.pos) ~r (p.map (fun h => m0.pos (m0.target h)))) ∧
    (n ≤ k → ((c.1.verticesAroundFace i).map c.1.pos) ~r (p.map (fun h => m0.pos (m0.target h))).reverse) ∧
    (w.popF = true → c.2.fmap.length = fs.length ∧ c.2.fmap[i]? = faceOf t)
  /-- where it lies: where its recorded polygons do -/
  loc : if a.below = [] ∨ a.above = [] then c.2.loc = .undefined else Extract.sideOf a fs = some c.2.loc

/-- Spec: polygon number `f` of the stitched mesh belongs to patch `k`. -/
def OfPatch (smCount : Nat) (made : List (Nat × Nat)) (k f : Nat) : Prop := ∃ a j, f = smCount + a ∧ made[a]? = some (k, j)

/-- Spec: `frs` are the sealed fragments: for each group of polygons that are connected in the stitched mesh, if it is wanted, there is exactly one, and there are no others. A group contains the fragments
(see `SameFragment`) and the patches as a whole; with a polygon that has a cut edge, it contains the patch that has the opposite halfedge; and it contains a polygon of the source mesh. -/
structure SealedListOf (d : P) (m0 : Mesh P) (base numCut nV1 n smCount : Nat) (traced : List (List Nat)) (faceOf : Nat → Option Nat) (polys pats : List (List Nat)) (ks : List Nat) (at' : Nat → Nat → Nat)
    (made : List (Nat × Nat)) (m : Mesh P) (polysS : List (List Nat)) (a : Args) (w : FragOptions) (groups : List (List Nat)) (frs : List (Mesh P × Info)) : Prop where
  each : List.Forall₂ (SealedOf d m0 base nV1 n smCount traced faceOf polys pats ks at' made m polysS a w) groups frs
  disjoint : groups.Pairwise List.Disjoint
  wanted : ∀ G ∈ groups, Wanted a G
  classes : ∀ G ∈ groups, G ≠ [] ∧ ∀ f ∈ G, ∀ g, g ∈ G ↔ g < polysS.length ∧ Extract.Linked m polysS f g
  all : ∀ f, f < polysS.length → ∀ G, (∀ g, g ∈ G ↔ g < polysS.length ∧ Extract.Linked m polysS f g) → Wanted a G → ∃ G' ∈ groups, f ∈ G'
  fragments : ∀ G ∈ groups, ∀ f ∈ G, f < smCount → ∀ g, g < smCount → SameFragment m0 base numCut (traced.take smCount) f g → g ∈ G
  patches : ∀ G ∈ groups, ∀ f ∈ G, ∀ k, OfPatch smCount made k f → ∀ g, OfPatch smCount made k g → g ∈ G
  sealed : ∀ G ∈ groups, ∀ f ∈ G, ∀ p h, f < smCount → traced[f]? = some p → h ∈ p → h < numCut → ∃ k ∈ ks, InSheet polys pats k (opposite h) ∧ ∀ g, OfPatch smCount made k g → g ∈ G
  source : ∀ G ∈ groups, ∃ f ∈ G, f < smCount

end Mcut.Stitch
