import Verif.Model.CutPaths
import Verif.Model.HalfPoly

/-!
# Patches of the cut mesh (source/kernel.cpp:7736-8110)

If every cut path makes a hole, the polygons of the cut mesh are gathered into patches, which are bounded by the cut. `T` is the table `m0_h_to_ply` (`Model/HalfPoly.lean`), `polys`
the traced polygons, of which the first `smCount` come from the source mesh, `numCut` is `m0_num_cutpath_halfedges`. `none` as result stands for an exception or for
undefined behaviour (an end iterator is dereferenced: the assertions before it are compiled out).
-/
namespace Mcut.Patches
open Mcut.Hmesh
variable {P : Type}

/-- `explicit_cutpaths_making_holes`: the numbers of the cut paths that make holes, in ascending order — source/kernel.cpp:3968-3988. -/
def makingHoles (kinds : List CutPaths.Kind) : List Nat := (List.range kinds.length).filter (fun k => (kinds[k]?).any (fun x => x.hole))

/-- The options that decide whether anything is left to do — include/mcut/internal/kernel.h:144-171. -/
structure Wishes where
  below : Bool
  above : Bool
  sealedIn : Bool
  sealedOut : Bool
  patchIn : Bool
  patchOut : Bool

/-- Does the dispatch go on? — source/kernel.cpp:7746-7769. -/
def proceeds (holes : List Nat) (seqs : List (List Nat)) (w : Wishes) : Bool :=
  holes.length == seqs.length && (w.below || w.above || w.sealedIn || w.sealedOut || w.patchIn || w.patchOut)

/-- The polygon of the cut mesh that is traced with halfedge `h`, and the place of `h` in it — source/kernel.cpp:7813-7848. -/
def seedOf (polys : List (List Nat)) (smCount : Nat) (T : Nat → List Nat) (h : Nat) : Option (Nat × Nat) :=
  ((T h).find? (fun j => decide (smCount ≤ j))).bind (fun j => (polys[j]?).bind (fun p => if p.contains h then some (j, (p.takeWhile (fun x => x != h)).length) else none))

/-- `patch_discovery_seeds`: one polygon on each side of the first edge of each cut path that makes a hole — source/kernel.cpp:7798-7851. -/
def seeds (polys : List (List Nat)) (smCount : Nat) (T : Nat → List Nat) (seqs : List (List Nat)) (holes : List Nat) : Option (List (Nat × Nat)) :=
  holes.foldlM (fun acc k => (seqs[k]?).bind (fun seq => (seq.head?).bind (fun e =>
    (seedOf polys smCount T (halfedgeOf e 0)).bind (fun a => (seedOf polys smCount T (halfedgeOf e 1)).map (fun b => acc ++ [a, b]))))) []

/-- One halfedge of a polygon: if it is not on a cut path, the polygon on its other side is put into the queue, unless it has been there. The state is the queue, and the
polygons with `patch_poly_enqueued` — source/kernel.cpp:8068-8098. -/
def enqueue (T : Nat → List Nat) (numCut : Nat) (s : List Nat × List Nat) (x : Nat) : List Nat × List Nat :=
  if numCut ≤ x then ((T (opposite x)).head?).elim s (fun j => if s.2.contains j then s else (s.1 ++ [j], s.2 ++ [j])) else s

/-- The flood fill; the result is the patch, and the polygons with `patch_poly_enqueued`. The first argument bounds the number of rounds — source/kernel.cpp:8014-8103. -/
def flood (polys : List (List Nat)) (T : Nat → List Nat) (numCut : Nat) : Nat → List Nat → List Nat → List Nat → Option (List Nat × List Nat)
  | _, [], seen, patch => some (patch, seen)
  | 0, _ :: _, _, _ => none
  | k + 1, j :: queue, seen, patch =>
    (polys[j]?).bind (fun p => flood polys T numCut k (p.foldl (enqueue T numCut) (queue, seen)).1 (p.foldl (enqueue T numCut) (queue, seen)).2 (patch ++ [j]))

/-- `patches`, `m0_cm_poly_to_patch_idx` (the latest assignment first), `patch_to_seed_poly_idx` with `patch_to_seed_interior_ihalfedge_idx`, `patch_poly_enqueued` —
source/kernel.cpp:7879-7909, 7953. -/
structure Found where
  patches : List (List Nat)
  table : List (Nat × Nat)
  starts : List (Nat × Nat)
  seen : List Nat

/-- `m0_cm_poly_to_patch_idx.find(j)`. -/
def patchOf (table : List (Nat × Nat)) (j : Nat) : Option Nat := (table.find? (fun e => e.1 == j)).map Prod.snd

/-- One seed: if its polygon has no patch yet, a patch is built from it — source/kernel.cpp:7961-8105. -/
def grow (polys : List (List Nat)) (T : Nat → List Nat) (numCut : Nat) (s : Found) (x : Nat × Nat) : Option Found :=
  if (patchOf s.table x.1).isSome then some s
  else (flood polys T numCut polys.length [x.1] (s.seen ++ [x.1]) []).map (fun r =>
    ⟨s.patches ++ [r.1], r.1.reverse.map (fun j => (j, s.patches.length)) ++ s.table, s.starts ++ [x], r.2⟩)

/-- The patches. The seeds are taken from the end of their list — source/kernel.cpp:7853, 7954-8108. (With the thread pool the table is searched in parallel, source/kernel.cpp:7979-7983:
the same result.) -/
def discover (polys : List (List Nat)) (T : Nat → List Nat) (numCut : Nat) (pool : List (Nat × Nat)) : Option Found :=
  pool.reverse.foldlM (grow polys T numCut) ⟨[], [], [], []⟩

end Mcut.Patches
