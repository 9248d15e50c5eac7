import Verif.Model.Extract

/-!
# The polygon soup and the first auxiliary mesh (source/kernel.cpp, begin of `dispatch`)

The source mesh and the cut mesh are merged into one mesh "ps", with tables from "ps" to the two meshes, and the vertices of "ps" are copied into "m0".
The vectors of descriptors are created with values that the code does not define (`descriptor_t_() { }`, include/mcut/internal/hmesh.h:53); here they hold
`junk`. The result `none` means undefined behaviour: an empty range given to `parallel_for` (division by zero, tpool.h:392), or the null descriptor used as index
(in release builds a refused face is not noticed, source/kernel.cpp:1697-1699).
-/
namespace Mcut.Extract
open Mcut.Hmesh Mcut.Sched
variable {P : Type}

/-- The order in which the results of the blocks of `parallel_for` are merged when the futures come first and the block of the calling thread last —
source/kernel.cpp:1703-1708; without the thread pool (`none`) the elements in order. -/
def parOrder (n : Nat) : Option Nat → Option (List Nat)
  | none => some (List.range n)
  | some avail =>
    match parallelForBlocks n avail 1024 with
    | .error _ => none
    | .ok bs => some (bs.flatMap blockIndices)

/-- Merging the vertices of the cut mesh — source/kernel.cpp:1651-1660: the mesh and `ps_to_cm_vtx`. -/
def mergeVertices (cs : Mesh P) (s : Mesh P × List Nat) : Mesh P × List Nat :=
  (enumerateFrom cs.vRem cs.nV 0).foldl (fun s i => ((s.1.addVertex (cs.pos i)).1, s.2.set (s.1.addVertex (cs.pos i)).2 i)) s

/-- Merging the faces of the cut mesh — source/kernel.cpp:1665-1728: the mesh and `ps_to_cm_face`. `off` is the number of vertices of the source mesh. -/
def mergeFaces (cs : Mesh P) (off : Nat) : List Nat → Mesh P × List Nat → Option (Mesh P × List Nat)
  | [], s => some s
  | i :: is, s =>
    let a := s.1.addFace ((cs.verticesAroundFace i).map (fun v => v + off))
    a.2.bind (fun f => mergeFaces cs off is (a.1, s.2.set f i))

/-- The soup and its tables. -/
structure Soup (P : Type) where
  ps : Mesh P
  psSm : List Nat
  psSmF : List Nat
  psCm : List Nat
  psCmF : List Nat

/-- source/kernel.cpp:1590-1728. -/
def soup (junk : Nat) (sm cs : Mesh P) (threads : Option Nat) : Option (Soup P) :=
  (parOrder sm.numVertices threads).bind (fun vo =>
    (parOrder sm.numFaces threads).bind (fun fo =>
      (parOrder cs.numFaces threads).bind (fun co =>
        let psSm := writeAll id (List.replicate (sm.numVertices + cs.numVertices) junk) vo
        let psSmF := writeAll id (List.replicate (sm.numFaces + cs.numFaces) junk) fo
        let s := mergeVertices cs (sm, List.replicate (sm.numVertices + cs.numVertices) junk)
        (mergeFaces cs sm.numVertices co (s.1, List.replicate (sm.numFaces + cs.numFaces) junk)).map (fun t =>
          ⟨t.1, psSm, psSmF, s.2, t.2⟩))))

/-- "m0" before the intersection points are added, with `m0_to_ps_vtx` — source/kernel.cpp:1756-1776. -/
def copyVertices (d : P) (ps : Mesh P) : Mesh P × List Nat :=
  (enumerateFrom ps.vRem ps.nV 0).foldl (fun s i => ((s.1.addVertex (ps.pos i)).1, s.2 ++ [i])) (Mesh.empty d, [])

/-- "m1" before the halfedges are added: a copy of the vertices of "m0", with `m1_to_m0_ovtx` — source/kernel.cpp:6981-6998. -/
def copyM0 (d : P) (junk : Nat) (m0 : Mesh P) : Mesh P × List Nat :=
  (enumerateFrom m0.vRem m0.nV 0).foldl (fun s i => ((s.1.addVertex (m0.pos i)).1, s.2.set (s.1.addVertex (m0.pos i)).2 i))
    (Mesh.empty d, List.replicate m0.numVertices junk)

/-- The tables for the calls with "m0" — source/kernel.cpp:6263-6290, 6313-6340: `m1_to_m0_…` are empty. -/
def Soup.tablesM0 (S : Soup P) (sm : Mesh P) (m0ps : List Nat) (m0face : Nat → Option Nat) : Tables :=
  ⟨[], [], [], m0ps, m0face, S.psSm, S.psSmF, S.psCm, S.psCmF, sm.numVertices, sm.numFaces⟩

/-- The tables for the calls with "m1" — source/kernel.cpp:7683-7710, 10498-10525, 10594-10621: `m1m0` is `m1_to_m0_ovtx`, `cm` and `fc` the vertices and
polygons that the stitching has registered (`m1_to_m0_cm_ovtx_colored`, `m1_to_m0_face_colored`). -/
def Soup.tablesM1 (S : Soup P) (sm : Mesh P) (m1m0 : List Nat) (cm fc : List (Nat × Nat)) (m0ps : List Nat) (m0face : Nat → Option Nat) : Tables :=
  ⟨m1m0.map some, cm, fc, m0ps, m0face, S.psSm, S.psSmF, S.psCm, S.psCmF, sm.numVertices, sm.numFaces⟩

end Mcut.Extract
