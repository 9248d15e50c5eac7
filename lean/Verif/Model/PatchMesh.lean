import Verif.Model.Colours
import Verif.Model.Soup

/-!
# Reversed patches and the patch meshes (source/kernel.cpp:8680-9267)

Every patch gets a reversed version, and the wanted ones are made into meshes. `m0` is the auxiliary mesh, `base` is `ps_vtx_cnt`. Results `none` stand for an exception (a missing key) or
for undefined behaviour.
-/
namespace Mcut.Patches
open Mcut.Hmesh Mcut.Extract Mcut.Sched
variable {P : Type}

/-- The reversed polygon: the opposite halfedges, in reverse order — source/kernel.cpp:8790-8838. -/
def reversed (p : List Nat) : List Nat := (p.map opposite).reverse

/-- `m0_polygons`, `m0_h_to_ply`, `patches`, `m0_cm_poly_to_patch_idx` (the latest assignment first), `m0_to_ps_face`, and `patch_to_opposite` as pairs of patch and reversed patch. -/
structure Two where
  polys : List (List Nat)
  users : Nat → List Nat
  patches : List (List Nat)
  table : List (Nat × Nat)
  faceOf : Nat → Option Nat
  pairs : List (Nat × Nat)

/-- The new polygon is added to the users of its halfedges — source/kernel.cpp:8795-8822. -/
def use (k : Nat) (U : Nat → List Nat) (p : List Nat) : Nat → List Nat := p.foldl (fun U x => upd U (opposite x) (U (opposite x) ++ [k])) U

/-- One polygon of a patch; `cw` is the number of the reversed patch, the second component of the state are its polygons — source/kernel.cpp:8759-8863. -/
def reversePoly (cw : Nat) (s : Two × List Nat) (j : Nat) : Option (Two × List Nat) :=
  (s.1.polys[j]?).bind (fun p =>
    (if (s.1.faceOf s.1.polys.length).isSome then some s.1.faceOf else (s.1.faceOf j).map (fun f => upd s.1.faceOf s.1.polys.length (some f))).map (fun F =>
      (⟨s.1.polys ++ [reversed p], use s.1.polys.length s.1.users p, s.1.patches, (s.1.polys.length, cw) :: s.1.table, F, s.1.pairs⟩, s.2 ++ [s.1.polys.length])))

/-- One patch — source/kernel.cpp:8724-8864. -/
def reversePatch (s : Two) (k : Nat) : Option Two :=
  (s.patches[k]?).bind (fun l => (l.foldlM (reversePoly s.patches.length) (s, [])).map (fun r =>
    { r.1 with patches := r.1.patches ++ [r.2], pairs := r.1.pairs ++ [(k, s.patches.length)] }))

/-- All patches: first those with colour 'A', then those with colour 'B' — source/kernel.cpp:8701-8866. -/
def reverseAll (s : Two) (red blue : List Nat) : Option Two := (red ++ blue).foldlM reversePatch s

/-- The reversed patches of a list of patches (`color_to_cw_patch`): `first` is the number of the first one — source/kernel.cpp:8713-8752. -/
def oppositesOf (first : Nat) (l : List Nat) : List Nat := List.range' first l.length

/-- `color_to_patch` after the merge; `n` is the number of patches that are not reversed — source/kernel.cpp:8895-8925. -/
def merged (n : Nat) (red blue : List Nat) : List (Bool × List Nat) := [(true, red ++ oppositesOf n red), (false, blue ++ oppositesOf (n + red.length) blue)]

/-- The order in which the faces are added: without the thread pool the order of the patch; with it, the blocks of the other threads and then the block of the calling thread,
which is the last one — source/kernel.cpp:9057-9080, 9095-9100. -/
def faceSequence (patch : List Nat) : Option Nat → Option (List Nat)
  | none => some patch
  | some avail =>
    match parallelForBlocks patch.length avail 1024 with
    | .error _ => none
    | .ok bs => (bs.flatMap blockIndices).mapM (fun i => patch[i]?)

/-- Adding one face — source/kernel.cpp:9023-9055, 9097-9119. A refused insertion is not noticed in release builds. -/
def addPolygon (m0 : Mesh P) (polys : List (List Nat)) (r : Rec P) (j : Nat) : Option (Rec P) :=
  (polys[j]?).bind (fun p => ((p.map m0.target).mapM r.toCC).map (fun vs => { r with mesh := (r.mesh.addFace vs).1, faces := r.faces ++ [j] }))

/-- The mesh of a patch, with the maps from and to the vertices of "m0" and the seam vertices (`m0_is_intersection_point`, 144-147, is the same as `markSeam` for the vertices of
"m0") — source/kernel.cpp:8957-9121. -/
def buildPatch (d : P) (m0 : Mesh P) (base : Nat) (polys : List (List Nat)) (threads : Option Nat) (patch : List Nat) : Option (Rec P) :=
  (patch.mapM (fun j => polys[j]?)).bind (fun ps => (faceSequence patch threads).bind (fun l =>
    l.foldlM (addPolygon m0 polys) ((ps.flatMap (fun p => p.map m0.target)).foldl (mapVertex m0 (markSeam m0 base none)) (Rec.new d))))

/-- The tables for the maps: the length of `m0_to_ps_vtx`, `ps_to_cm_vtx`, `ps_to_cm_face`, and the numbers of vertices and faces of the source mesh. -/
structure Origins where
  numPs : Nat
  psCm : List Nat
  psCmF : List Nat
  smV : Nat
  smF : Nat

/-- The tables at this point of the program: `m0_to_ps_vtx` has been filled when "m0" was begun — source/kernel.cpp:1608-1776. -/
def originsOf (d : P) (S : Soup P) (sm : Mesh P) : Origins := ⟨(copyVertices d S.ps).2.length, S.psCm, S.psCmF, sm.numVertices, sm.numFaces⟩

/-- An entry of the vertex map; the inner `none` is the null vertex — source/kernel.cpp:9149-9170, 9184-9202. -/
def patchVertex (T : Origins) (v : Nat) : Option (Option Nat) := if v < T.numPs then (T.psCm[v]?).map (fun x => some (x + T.smV)) else some none

/-- An entry of the face map — source/kernel.cpp:9213-9228, 9240-9256. -/
def patchFace (T : Origins) (faceOf : Nat → Option Nat) (j : Nat) : Option Nat := (faceOf j).bind (fun f => (T.psCmF[f]?).map (fun x => x + T.smF))

/-- A patch of the output: on which side it is, whether it has its original winding order, the mesh, the seam vertices and the maps — source/kernel.cpp:9128-9263. -/
structure PatchOut (P : Type) where
  place : Place
  asIs : Bool
  mesh : Mesh P
  seams : List Nat
  vmap : List (Option Nat)
  fmap : List Nat

/-- Is a patch at that place wanted? — source/kernel.cpp:8952-8955. -/
def wantedAt (w : Wishes) : Place → Bool
  | .inside => w.patchIn
  | .outside => w.patchOut

/-- One patch; `n` is `total_ccw_patch_count`, which is not 0 here (`k % 0` is undefined behaviour in C++) — source/kernel.cpp:8947-9264. -/
def savePatch (d : P) (m0 : Mesh P) (base : Nat) (threads : Option Nat) (T : Origins) (popV popF : Bool) (w : Wishes) (n : Nat) (s : Two) (place : Place) (out : List (PatchOut P)) (k : Nat) :
    Option (List (PatchOut P)) :=
  if wantedAt w place then
    (s.patches[k]?).bind (fun l => (buildPatch d m0 base s.polys threads l).bind (fun r =>
      (if popV then (List.range r.mesh.numVertices).mapM (fun i => (r.fromCC[i]?).bind (patchVertex T)) else some []).bind (fun vm =>
        (if popF then (List.range r.mesh.numFaces).mapM (fun i => (r.faces[i]?).bind (patchFace T s.faceOf)) else some []).map (fun fm =>
          out ++ [⟨place, k % n == k, r.mesh, r.seams, vm, fm⟩]))))
  else some out

/-- All patches, by colour — source/kernel.cpp:8940-9267. -/
def savePatches (d : P) (m0 : Mesh P) (base : Nat) (threads : Option Nat) (T : Origins) (popV popF : Bool) (w : Wishes) (n : Nat) (s : Two) (meaning : Bool → Place)
    (colours : List (Bool × List Nat)) : Option (List (PatchOut P)) :=
  colours.foldlM (fun out c => c.2.foldlM (savePatch d m0 base threads T popV popF w n s (meaning c.1)) out) []

end Mcut.Patches
