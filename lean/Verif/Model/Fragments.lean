import Verif.Model.Split
import Verif.Model.SeamMesh

/-!
# The fragments that are not sealed (source/kernel.cpp:7660-7735)

From the polygons of "m1", into which the source mesh has been cut apart, the connected components are extracted. `none` as result stands for an exception.
-/
namespace Mcut.Split
open Mcut.Hmesh Mcut.Extract
open Mcut.Trace (Out present)
variable {P : Type}

/-- The options that matter here — include/mcut/internal/kernel.h:144-171. -/
structure FragOptions where
  keepUnsealed : Bool
  keep : Keep
  popV : Bool
  popF : Bool

/-- `m1_to_m0_face`: the polygons have kept their numbers — source/kernel.cpp:7651-7652. -/
def sameFace (smCount : Nat) : List (Nat × Nat) := (List.range smCount).map (fun f => (f, f))

/-- The tables — source/kernel.cpp:7694-7706. `junk` is what a new table holds. -/
def fragTables (d : P) (junk : Nat) (S : Soup P) (sm m0 : Mesh P) (o : Out) : Extract.Tables :=
  S.tablesM1 sm (copyM0 d junk m0).2 [] (sameFace o.smCount) (copyVertices d S.ps).2 o.faceOf

/-- The arguments — source/kernel.cpp:7668-7674, 7684-7713. `base` is `ps_vtx_cnt`; `m1_num_vertices_after_srcmesh_partitioning` is the number of vertices of "m1" at
this point (source/kernel.cpp:7581). -/
def fragArgs (m1 : Mesh P) (base : Nat) (T : Extract.Tables) (below above : List Nat) (w : FragOptions) : Args :=
  ⟨0, below, above, markSeam m1 base (some m1.nV), T, w.popV, w.popF, w.keep⟩

/-- The fragments, in the order of their ids — source/kernel.cpp:7677-7735. -/
def unsealedList (d : P) (m1 : Mesh P) (polys1 : List (List Nat)) (a : Args) (w : FragOptions) (threads : Option Nat) : Option (List (Mesh P × Info)) :=
  if w.keepUnsealed || w.keep.partly then
    (extract d m1 polys1 a threads (fun _ => [])).map (fun r => (present (Preproc.findComponents r.1).num r.2).filterMap (fun k => (r.2 k).head?))
  else some []

/-- `output.unsealed_cc` — source/kernel.cpp:7731: a list for each location. -/
def byLocation (l : List (Mesh P × Info)) (x : Loc) : List (Mesh P × Info) := l.filter (fun c => decide (c.2.loc = x))

end Mcut.Split
