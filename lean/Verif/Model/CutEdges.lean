import Verif.Model.Registry

/-!
# Joining the intersection points by edges (source/kernel.cpp:3284-3560)

For each pair of a source mesh face and a cut mesh face that have common intersection points the kernel adds edges between these points to "m0", and records the edges of
each face and the halfedges that end in each point. The hash maps are functions to lists, as in `Model/Registry.lean`.
-/
namespace Mcut.CutEdges
open Mcut.Hmesh Mcut.Registry
variable {P : Type}

/-- "m0", `m0_cutpath_edges`, `ps_iface_to_m0_edge_list`, `ivtx_to_incoming_hlist` — source/kernel.cpp:3292-3307. -/
structure St (P : Type) where
  m0 : Mesh P
  cutEdges : List Nat
  faceEdges : Nat → List Nat
  incoming : Nat → List Nat

/-- The points are added to "m0" in the order of the registry — source/kernel.cpp:2645-2652, 2730-2736, 3080. -/
def addPoints (m0 : Mesh P) (pts : List P) : Mesh P := pts.foldl (fun m p => (m.addVertex p).1) m0

/-- `ps_get_ivtx_registry_entry_faces`; `none` is the null face — source/kernel.cpp:1409-1417. -/
def registryFaces (ps : Mesh P) (x : Nat × Nat) : List (Option Nat) := [some x.2, ps.face (halfedgeOf x.1 0), ps.face (halfedgeOf x.1 1)]

/-- `update_neighouring_ps_iface_m0_edge_list`: `e` is the edge just added, `a`, `b` the faces in the registry entries of its ends — source/kernel.cpp:1422-1492. -/
def updateNeighbours (ps : Mesh P) (a b : List (Option Nat)) (s c e : Nat) (M : Nat → List Nat) : Nat → List Nat :=
  (ps.facesAroundFace s ++ ps.facesAroundFace c).foldl
    (fun M g => if a.contains (some g) && b.contains (some g) then (if (M g).contains e then M else push M g e) else M) M

/-- Adding an edge from `v` to `w`, its faces `fs` — source/kernel.cpp:3406-3411, 3431-3436, 3522-3540, 3547-3551. -/
def addCut (st : St P) (v w : Nat) (fs : List Nat) : St P :=
  let r := st.m0.addEdge v w
  ⟨r.1, st.cutEdges ++ [edgeOf r.2], fs.foldl (fun M f => push M f (edgeOf r.2)) st.faceEdges, push (push st.incoming w r.2) v (opposite r.2)⟩

/-- Exactly two points — source/kernel.cpp:3391-3437. `none`: index out of range in the registry. -/
def two (ps : Mesh P) (psV : Nat) (reg : List (Nat × Nat)) (s c v w : Nat) (st : St P) : Option (St P) :=
  if (st.m0.halfedge v w true).isSome then some st
  else
    (reg[v - psV]?).bind fun x => (reg[w - psV]?).bind fun y =>
      let st' := addCut st v w [s, c]
      some { st' with faceEdges := updateNeighbours ps (registryFaces ps x) (registryFaces ps y) s c (edgeOf (st.m0.addEdge v w).2) st'.faceEdges }

/-- Two consecutive ones of more than two points: `inside f v w` says that the middle of `v` and `w` is in face `f` (`compute_point_in_polygon_test`) —
source/kernel.cpp:3455-3553. -/
def link (ps : Mesh P) (psV : Nat) (reg : List (Nat × Nat)) (inside : Nat → Nat → Nat → Bool) (st : St P) (v w : Nat) : Option (St P) :=
  if (st.m0.halfedge v w true).isSome then some st
  else
    (reg[v - psV]?).bind fun x => (reg[w - psV]?).bind fun y =>
      let shared := ((registryFaces ps x).filterMap id).filter (fun f => (registryFaces ps y).contains (some f))
      let containing := shared.filter (fun f => inside f v w)
      some (if containing.length = 2 then addCut st v w containing else st)

/-- One pair of faces — source/kernel.cpp:3379-3556. `sort` is `linear_projection_sort` (1498-1534). A list of one point is only asserted away (3388). -/
def pairEdges (ps : Mesh P) (psV : Nat) (reg : List (Nat × Nat)) (sort : List Nat → List Nat) (inside : Nat → Nat → Nat → Bool) (cut : Nat × Nat → List Nat)
    (st : St P) (k : Nat × Nat) : Option (St P) :=
  match cut k with
  | [] => some st
  | [_] => some st
  | [v, w] => two ps psV reg k.1 k.2 v w st
  | l => ((sort l).zip (sort l).tail).foldlM (fun st x => link ps psV reg inside st x.1 x.2) st

/-- The whole stage: `keys` are the keys of `cutpath_edge_creation_info` in order — source/kernel.cpp:3284-3557. -/
def cutEdges (ps : Mesh P) (psV : Nat) (reg : List (Nat × Nat)) (sort : List Nat → List Nat) (inside : Nat → Nat → Nat → Bool) (cut : Nat × Nat → List Nat)
    (keys : List (Nat × Nat)) (m0 : Mesh P) : Option (St P) :=
  keys.foldlM (pairEdges ps psV reg sort inside cut) ⟨m0, [], fun _ => [], fun _ => []⟩

end Mcut.CutEdges
