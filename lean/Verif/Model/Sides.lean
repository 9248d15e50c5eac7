import Verif.Model.HalfPoly
import Verif.Model.Geom

/-!
# Polygons above and below the cut mesh, exterior polygons of the cut mesh (source/kernel.cpp:6443-6821)

The polygons along the cut are classified: those of the source mesh by the side of the cut mesh on which they lie, those of the cut mesh that lie outside of the source
mesh next to a cut path that makes a hole. `numCut` is `m0_num_cutpath_halfedges`, `T` is the table `m0_h_to_ply` (`Model/HalfPoly.lean`), `o` the result of the tracing
(`Model/Trace.lean`), the sign of the scalar product is given by `falls` (see `fallsOf`). `none` as result stands for an exception or for undefined behaviour (the end of a
vector is dereferenced: the assertions before it are compiled out).
-/
namespace Mcut.Trace
open Mcut.Hmesh
variable {P : Type}

/-- `ps_get_ivtx_registry_entry_faces` — source/kernel.cpp:1409-1417. -/
def entryFaces (ps : Mesh P) (r : Nat × Nat) : List (Option Nat) := [some r.2, ps.face (halfedgeOf r.1 0), ps.face (halfedgeOf r.1 1)]

/-- `tested_face`: the first face of the registry entry that is of the other mesh than the edge — source/kernel.cpp:6558-6580, 6722-6745 (`ps_is_cutmesh_vertex`, `ps_is_cutmesh_face`: 150-158). -/
def testedFace (ps : Mesh P) (smV smF : Nat) (r : Nat × Nat) : Option Nat :=
  (entryFaces ps r).findSome? (fun f => f.bind (fun g => if (if smV ≤ ps.edgeVertex r.1 0 then g < smF else smF ≤ g) then some g else none))

/-- Is the scalar product of the normal of face `g` with the vector from `s` to `t` negative? `normal` is `ps_tested_face_to_plane_normal`, whose lookup throws when there is
no entry — source/kernel.cpp:6586-6612, 6748-6767. -/
def fallsOf {K : Type} [Field K] [LinearOrder K] (normal : Nat → Option (Geom.V3 K)) (pos : Nat → Geom.V3 K) (g s t : Nat) : Option Bool :=
  (normal g).map (fun n => decide (Geom.dot n (Geom.sub3 (pos t) (pos s)) < 0))

/-- The sign test at halfedge `x`, which ends in an intersection point with registry entry `r` — source/kernel.cpp:6550-6612, 6717-6767. -/
def enters (ps m0 : Mesh P) (smV smF : Nat) (falls : Nat → Nat → Nat → Option Bool) (r : Nat × Nat) (x : Nat) : Option Bool :=
  (testedFace ps smV smF r).bind (fun g => falls g (src m0 x) (m0.target x))

/-- The polygon of the source mesh on the other side of the halfedge after number `k` of polygon `p` (`wrap_integer`: include/mcut/internal/utils.h:115-124) —
source/kernel.cpp:6787-6811. -/
def neighbour (T : Nat → List Nat) (smCount : Nat) (p : List Nat) (k : Nat) : Option Nat :=
  (p[(k + 1) % p.length]?).bind (fun y => (T (opposite y)).find? (fun j => decide (j < smCount)))

/-- What halfedge `x`, number `k` of polygon `p`, says: nothing, or that the polygon is above and its neighbour below — source/kernel.cpp:6660-6811. -/
def verdict (ps m0 : Mesh P) (smV smF base numCut : Nat) (reg : List (Nat × Nat)) (falls : Nat → Nat → Nat → Option Bool) (T : Nat → List Nat) (smCount : Nat) (p : List Nat) (x k : Nat) :
    Option (Option Nat) :=
  if m0.target x < base then some none
  else (reg[m0.target x - base]?).bind (fun r =>
    if src m0 x < base ∨ numCut ≤ x then
      (enters ps m0 smV smF falls r x).bind (fun b => if b then (neighbour T smCount p k).map some else some none)
    else some none)

/-- The polygon `i` is recorded as above and its neighbour `j` as below. (The second search looks for `i`, not for `j`, in the list of the polygons below.) —
source/kernel.cpp:6776-6781, 6810-6815. -/
def mark (i : Nat) (s : List Nat × List Nat) (j : Nat) : List Nat × List Nat :=
  (if s.1.contains i then s.1 else s.1 ++ [i], if s.2.contains i then s.2 else s.2 ++ [j])

/-- The halfedges of polygon `i` — source/kernel.cpp:6655-6819. -/
def sidesOf (ps m0 : Mesh P) (smV smF base numCut : Nat) (reg : List (Nat × Nat)) (falls : Nat → Nat → Nat → Option Bool) (T : Nat → List Nat) (o : Out) (i : Nat)
    (s : List Nat × List Nat) : Option (List Nat × List Nat) :=
  (o.polygons[i]?).bind (fun p => p.zipIdx.foldlM (fun s x =>
    (verdict ps m0 smV smF base numCut reg falls T o.smCount p x.1 x.2).map (fun r => r.elim s (mark i s))) s)

/-- `sm_polygons_above_cs`, `sm_polygons_below_cs`, sorted — source/kernel.cpp:6641-6821. -/
def sides (ps m0 : Mesh P) (smV smF base numCut : Nat) (reg : List (Nat × Nat)) (falls : Nat → Nat → Nat → Option Bool) (T : Nat → List Nat) (o : Out) :
    Option (List Nat × List Nat) :=
  (o.sm.foldlM (fun s i => sidesOf ps m0 smV smF base numCut reg falls T o i s) ([], [])).map (fun s => (s.1.mergeSort (fun a b => decide (a ≤ b)), s.2.mergeSort (fun a b => decide (a ≤ b))))

/-- What halfedge `x` of a polygon of the cut mesh says: does it lead into the source mesh, next to a cut path that makes a hole? `path` is `m0_ivtx_to_cutpath_sequence`, whose
lookup throws when there is no entry, `holes` is `explicit_cutpaths_making_holes` — source/kernel.cpp:6484-6618. -/
def leadsIn (ps m0 : Mesh P) (smV smF base : Nat) (reg : List (Nat × Nat)) (falls : Nat → Nat → Nat → Option Bool) (path : Nat → Option Nat) (holes : List Nat) (x : Nat) : Option Bool :=
  if m0.target x < base then some false
  else (path (m0.target x)).bind (fun q =>
    if holes.contains q then
      (reg[m0.target x - base]?).bind (fun r =>
        if src m0 x < base then enters ps m0 smV smF falls r x
        else (reg[src m0 x - base]?).bind (fun r' => if r'.1 = r.1 then enters ps m0 smV smF falls r x else some false))
    else some false)

/-- The first halfedge, from number `k` on, that leads in — source/kernel.cpp:6480-6620. -/
def firstIn (ps m0 : Mesh P) (smV smF base : Nat) (reg : List (Nat × Nat)) (falls : Nat → Nat → Nat → Option Bool) (path : Nat → Option Nat) (holes : List Nat) :
    Nat → List Nat → Option (Option Nat)
  | _, [] => some none
  | k, x :: p => (leadsIn ps m0 smV smF base reg falls path holes x).bind (fun b => if b then some (some k) else firstIn ps m0 smV smF base reg falls path holes (k + 1) p)

/-- `known_exterior_cm_polygons` as a list of pairs — source/kernel.cpp:6461-6623. -/
def exterior (ps m0 : Mesh P) (smV smF base : Nat) (reg : List (Nat × Nat)) (falls : Nat → Nat → Nat → Option Bool) (path : Nat → Option Nat) (holes : List Nat) (o : Out) :
    Option (List (Nat × Nat)) :=
  if holes.isEmpty then some []
  else o.cm.foldlM (fun M i =>
    if M.any (fun e => e.1 == i) then some M
    else (o.polygons[i]?).bind (fun p => (firstIn ps m0 smV smF base reg falls path holes 0 p).map (fun r => r.elim M (fun k => M ++ [(i, k)])))) []

end Mcut.Trace
