import Verif.Model.PatchMesh
import Verif.Spec.C59
import Verif.Spec.C79

/-! Specification notions used in the statements of `Props/C81.lean`. -/
namespace Mcut.Patches
open Mcut.Hmesh Mcut.Extract
variable {P : Type}

/-- Spec: `q` is the mesh of the polygons `l` (those of "m0", numbered in `polys`), as they are or, if `asIs` is false, with the corners in reverse order. `vs` are the vertices of "m0" it has been copied
from. Seam vertices are the copies of the vertices from `base` on, the intersection points. The vertex map gives the number of the vertex in the two input meshes together (first the `smV`
vertices of the source mesh), or nothing for an intersection point; only vertices of the cut mesh are used. The face map gives the number of the face. -/
structure PatchMeshOf (d : P) (m0 : Mesh P) (smV smF base : Nat) (polys : List (List Nat)) (faceOf : Nat → Option Nat) (popV popF : Bool) (asIs : Bool) (l : List Nat) (q : PatchOut P) : Prop where
  order : q.asIs = asIs
  mesh : ∃ vs, Extract.CopyOf d m0 (if asIs then polys else polys.map List.reverse) q.mesh vs l ∧ (∀ v ∈ vs, smV ≤ v) ∧
    (∀ i, i ∈ q.seams ↔ ∃ v, vs[i]? = some v ∧ base ≤ v) ∧ (popV = true → q.vmap = vs.map (fun v => if v < base then some v else none))
  faces : popF = true → List.Forall₂ (fun i f => faceOf i = some f ∧ smF ≤ f) l q.fmap

/-- Spec: the output has, for each place, exactly the patches of that place, each twice — as it is, and reversed —, if patches inside, or outside, have been asked for, and otherwise none. `placeOf k` is the place of patch `k`. -/
def SavedAll (d : P) (m0 : Mesh P) (smV smF base : Nat) (polys : List (List Nat)) (faceOf : Nat → Option Nat) (popV popF : Bool) (w : Wishes) (patches : List (List Nat)) (placeOf : Nat → Option Place)
    (out : List (PatchOut P)) : Prop :=
  ∀ (place : Place) (asIs : Bool), ∃ ks : List Nat, ks.Nodup ∧ (∀ k, k ∈ ks ↔ (if place = .inside then w.patchIn else w.patchOut) = true ∧ placeOf k = some place) ∧
    List.Forall₂ (fun k q => ∃ l, patches[k]? = some l ∧ PatchMeshOf d m0 smV smF base polys faceOf popV popF asIs l q) ks (out.filter (fun q => q.place = place ∧ q.asIs = asIs))

end Mcut.Patches
