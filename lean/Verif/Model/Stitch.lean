import Verif.Model.PatchMesh
import Verif.Model.Fragments

/-!
# Stitching the patches to the fragments (source/kernel.cpp:9268-10735)

For each of the two colours there is a copy of "m1" (the fragments, cut apart: `Model/Split.lean`). The patches of that colour, as they are and reversed (`Model/PatchMesh.lean`), are added to it, polygon
by polygon, so that they use the halfedges along the cut. Then the connected components are extracted. `none` as result stands for an exception (a missing key) or for
undefined behaviour.
-/
namespace Mcut.Stitch
open Mcut.Hmesh Mcut.Extract Mcut.Patches Mcut.Split
open Mcut.Trace (src present)
variable {P : Type}

/-- What the stage reads: `base` is `ps_vtx_cnt`, `reg` is `m0_ivtx_to_intersection_registry_entry`, `ihe` is `m0_to_m1_ihe`, `smCount` is `traced_sm_polygon_count`, `traced` is
`traced_polygon_count` (the polygons from there on are the reversed ones), `ccw` is `total_ccw_patch_count`, `fixed` is `sm_interior_cs_border_vertices` (empty unless the cut is a partial one). -/
structure Env (P : Type) where
  m0 : Mesh P
  base : Nat
  reg : List (Nat × Nat)
  ihe : Nat → Option Nat
  two : Two
  smCount : Nat
  traced : Nat
  ccw : Nat
  fixed : List Nat

/-- `m0_to_m1_ihe` after the partitioning of the source mesh — source/kernel.cpp:6989, 7232-7550. -/
def iheOf (d : P) (E : Split.Env P) (m0 : Mesh P) (order : List Nat) : Option (Nat → Option Nat) := (walks E order (begin d E.base m0 order)).map (fun s => s.ihe)

/-- The seed of a reversed patch: the reversed polygon that has the opposite of the seed halfedge — source/kernel.cpp:9286-9375. -/
def reversedStart (s : Two) (traced : Nat) (starts : List (Nat × Nat)) (k : Nat) : Option (Nat × Nat) :=
  (starts[k]?).bind (fun x => (s.polys[x.1]?).bind (fun p => (p[x.2]?).bind (fun h =>
    ((s.users (opposite h)).find? (fun e => decide (traced ≤ e))).bind (fun e => (s.polys[e]?).bind (fun q =>
      if q.contains (opposite h) then some (e, (q.takeWhile (fun x => x != opposite h)).length) else none)))))

/-- `patch_to_seed_poly_idx` with `patch_to_seed_interior_ihalfedge_idx`: the reversed patches are numbered after the others, in the order in which they were made — source/kernel.cpp:9286-9375. -/
def allStarts (s : Two) (traced : Nat) (starts : List (Nat × Nat)) : Option (List (Nat × Nat)) :=
  (s.pairs.mapM (fun x => reversedStart s traced starts x.1)).map (fun l => starts ++ l)

/-- For one colour: `m1_colored`, `m0_to_m1_he_instances` (patch, halfedge of "m0"), `m1_polygons_colored`, `m1_to_m0_face_colored`, `m1_to_m0_cm_ovtx_colored`. -/
structure St (P : Type) where
  m : Mesh P
  inst : Nat → Nat → Option Nat
  polys : List (List Nat)
  faces : List (Nat × Nat)
  cmv : List (Nat × Nat)

/-- `m0_is_intersection_point` for both ends — source/kernel.cpp:144-147. -/
def between (E : Env P) (h : Nat) : Bool := decide (E.base ≤ src E.m0 h) && decide (E.base ≤ E.m0.target h)

/-- `is_valid_ambiguious_interior_edge`: do the two points belong to different edges? — source/kernel.cpp:9742-9768, 9891-9907. -/
def interior (E : Env P) (h : Nat) : Option Bool :=
  (E.reg[src E.m0 h - E.base]?).bind (fun a => (E.reg[E.m0.target h - E.base]?).map (fun b => decide (a.1 ≠ b.1)))

/-- The "m1" halfedge for a halfedge on the cut: the opposite of that which the source mesh polygon on its other side has — source/kernel.cpp:9598-9614, 9771-9780, 9913-9921. -/
def atCut (E : Env P) (h : Nat) : Option Nat := (E.ihe (opposite h)).map opposite

/-- Has the halfedge of a polygon of the current patch been processed, for one of the halfedges to a vertex? — source/kernel.cpp:10067-10123. (The second search, for the opposite halfedge, looks up
the same key as the first one and cannot succeed.) -/
def neighbour (s : St P) (k : Nat) (l : List Nat) : Option Nat := l.findSome? (s.inst k)

/-- The vertex for the end of halfedge `h`, which is no intersection point; `n` is the next halfedge — source/kernel.cpp:10016-10149. -/
def originalEnd (E : Env P) (s : St P) (k h n : Nat) : Mesh P × Nat :=
  if k % E.ccw = k then (s.m, E.m0.target h)
  else match s.inst k (opposite h) with
    | some g => (s.m, src s.m g)
    | none => match s.inst k n with
      | some g => (s.m, src s.m g)
      | none => match neighbour s k (E.m0.vh (E.m0.target h)) with
        | some g => (s.m, s.m.target g)
        | none => if E.fixed.contains (E.m0.target h) then (s.m, E.m0.target h) else s.m.addVertex (E.m0.pos (E.m0.target h))

/-- The halfedge of "m1" for halfedge `h`, if it is on the cut, and the vertex where it ends. `n` is the next halfedge, `first` the halfedge of "m1" with which the polygon was begun,
`last` tells that the polygon is finished with it — source/kernel.cpp:9716-10151. -/
def endOf (E : Env P) (s : St P) (k first h n : Nat) (last : Bool) : Option (Mesh P × Option Nat × Nat) :=
  if last then
    if between E h then (interior E h).bind (fun b => if b then (atCut E h).map (fun g => (s.m, some g, src s.m first)) else some (s.m, none, src s.m first))
    else some (s.m, none, src s.m first)
  else if src E.m0 h < E.base ∧ E.base ≤ E.m0.target h then
    match s.inst k (opposite h) with
    | some g => some (s.m, none, src s.m g)
    | none => (atCut E n).map (fun g => (s.m, none, src s.m g))
  else if between E h then
    (interior E h).bind (fun b => if b then (atCut E h).map (fun g => (s.m, some g, s.m.target g)) else (atCut E n).map (fun g => (s.m, none, src s.m g)))
  else some ((originalEnd E s k h n).1, none, (originalEnd E s k h n).2)

/-- The halfedge from `a` to `b`: an existing one or a new one — source/kernel.cpp:10152-10180. -/
def halfOf (m : Mesh P) (a b : Nat) : Mesh P × Nat :=
  match m.halfedge a b true with
  | some g => (m, if src m (halfedgeOf (edgeOf g) 0) = a then halfedgeOf (edgeOf g) 0 else halfedgeOf (edgeOf g) 1)
  | none => m.addEdge a b

/-- One halfedge of a polygon; the second component of the state is the new polygon so far — source/kernel.cpp:9660-10223. (`insert` does not replace an entry.) -/
def visit (E : Env P) (k first : Nat) (s : St P × List Nat) (x : Nat × Nat × Bool) : Option (St P × List Nat) :=
  (endOf E s.1 k first x.1 x.2.1 x.2.2).map (fun r =>
    let g := r.2.1.elim (halfOf r.1 (s.1.m.target (s.2.getLastD 0)) r.2.2) (fun g => (r.1, g))
    ({ s.1 with m := g.1, inst := if (s.1.inst k x.1).isSome then s.1.inst else upd s.1.inst k (upd (s.1.inst k) x.1 (some g.2)) }, s.2 ++ [g.2]))

/-- The halfedges of the polygon after the first, each with its successor and whether it is the last one — source/kernel.cpp:9669, 9692, 10223. -/
def remaining (r : List Nat) : List (Nat × Nat × Bool) :=
  (List.range' 1 (r.length - 1)).map (fun t => (r.getD t 0, r.getD ((t + 1) % r.length) 0, t + 1 == r.length))

/-- A polygon that waits: the halfedge of "m1" to begin with, the polygon, and the place of that halfedge in it — source/kernel.cpp:9437. -/
structure Job where
  first : Nat
  poly : Nat
  index : Nat
  deriving DecidableEq, Repr

/-- One polygon is stitched — source/kernel.cpp:9636-10223. (Polygons have at least two halfedges.) -/
def stitchPoly (E : Env P) (k : Nat) (s : St P) (j : Job) : Option (St P) :=
  (E.two.polys[j.poly]?).bind (fun p =>
    ((remaining (p.rotate j.index)).foldlM (visit E k j.first) (s, [j.first])).map (fun r =>
      { r.1 with polys := r.1.polys ++ [r.2], faces := (r.1.polys.length, j.poly) :: r.1.faces }))

/-- The polygon of the current patch that has halfedge `h` — source/kernel.cpp:10328-10354. -/
def userIn (E : Env P) (k h : Nat) : Option (Option Nat) :=
  firstThat (fun j => if (if k % E.ccw = k then decide (j < E.traced) else decide (E.traced ≤ j)) then (patchOf E.two.table j).map (fun i => decide (i = k)) else some false) (E.two.users h)

/-- One halfedge `h` of the polygon that has been stitched, which was begun with halfedge `h0`: the neighbouring polygon is put into the queue, if there is one and it has not been there; if `h` ends in an original
vertex, this is noted. The state are the new jobs, the polygons with `m0_poly_already_enqueued`, and `m1_to_m0_cm_ovtx_colored` — source/kernel.cpp:10253-10463. -/
def look (E : Env P) (k h0 : Nat) (s : St P) (q : List Job × List Nat × List (Nat × Nat)) (h : Nat) : Option (List Job × List Nat × List (Nat × Nat)) :=
  if h = h0 then some q
  else (if between E h then interior E h else some false).bind (fun b =>
    if b || (s.inst k (opposite h)).isSome then some q
    else (s.inst k h).bind (fun g => (userIn E k (opposite h)).bind (fun u => match u with
      | none => some q
      | some j => (E.two.polys[j]?).bind (fun p =>
        let q1 := if q.2.1.contains j then q else (q.1 ++ [⟨opposite g, j, (p.takeWhile (fun x => x != opposite h)).length⟩], q.2.1 ++ [j], q.2.2)
        some (if E.m0.target h < E.base ∧ ¬ (q1.2.2.any (fun x => x.1 == s.m.target g)) then (q1.1, q1.2.1, q1.2.2 ++ [(s.m.target g, E.m0.target h)]) else q1)))))

/-- One round: a polygon is stitched and its neighbours are put into the queue — source/kernel.cpp:9636-10526. -/
def round (E : Env P) (k : Nat) (s : St P) (queued : List Nat) (j : Job) : Option (St P × List Job × List Nat) :=
  (stitchPoly E k s j).bind (fun s' => (E.two.polys[j.poly]?).bind (fun p => (p[j.index]?).bind (fun h0 =>
    (p.foldlM (look E k h0 s') ([], if queued.contains j.poly then queued else queued ++ [j.poly], s'.cmv)).map (fun q => ({ s' with cmv := q.2.2 }, q.1, q.2.1)))))

/-- The rounds of one patch; the first argument bounds their number — source/kernel.cpp:9636-10531. -/
def rounds (E : Env P) (k : Nat) : Nat → St P → List Nat → List Job → Option (St P)
  | _, s, _, [] => some s
  | 0, _, _, _ :: _ => none
  | f + 1, s, queued, j :: js => (round E k s queued j).bind (fun r => rounds E k f r.1 r.2.2 (js ++ r.2.1))

/-- One patch — source/kernel.cpp:9537-10536. -/
def stitchPatch (E : Env P) (starts : List (Nat × Nat)) (s : St P) (k : Nat) : Option (St P) :=
  (starts[k]?).bind (fun x => (E.two.polys[x.1]?).bind (fun p => (p[x.2]?).bind (fun h => (atCut E h).bind (fun g => rounds E k E.two.polys.length s [] [⟨g, x.1, x.2⟩]))))

/-- All patches of one colour — source/kernel.cpp:9456-10538. -/
def stitchColour (E : Env P) (starts : List (Nat × Nat)) (m1 : Mesh P) (polys1 : List (List Nat)) (l : List Nat) : Option (St P) :=
  l.foldlM (stitchPatch E starts) ⟨m1, fun _ _ => none, polys1, sameFace polys1.length, []⟩

/-- Are fragments that are sealed with patches from that place wanted? — source/kernel.cpp:9481-9484. -/
def sealedAt (w : Wishes) : Place → Bool
  | .inside => w.sealedIn
  | .outside => w.sealedOut

/-- The tables for the maps — source/kernel.cpp:10600-10614. -/
def sealedTables (d : P) (junk : Nat) (S : Soup P) (sm m0 : Mesh P) (faceOf : Nat → Option Nat) (s : St P) : Extract.Tables :=
  S.tablesM1 sm (copyM0 d junk m0).2 s.cmv s.faces (copyVertices d S.ps).2 faceOf

/-- The arguments of the extraction: the flags for the seam vertices are those of "m1" before the stitching — source/kernel.cpp:10588-10617. -/
def sealedArgs (m1 : Mesh P) (base : Nat) (T : Extract.Tables) (below above : List Nat) (w : FragOptions) : Args :=
  ⟨0, below, above, markSeam m1 base (some m1.nV), T, w.popV, w.popF, w.keep⟩

/-- The sealed fragments of one colour, in the order of their ids — source/kernel.cpp:10571-10620, 10643-10680. -/
def sealedList (d : P) (s : St P) (a : Args) (threads : Option Nat) : Option (List (Mesh P × Info)) :=
  (extract d s.m s.polys a threads (fun _ => [])).map (fun r => (present (Preproc.findComponents r.1).num r.2).flatMap r.2)

/-- All sealed fragments: those of colour 'A', then those of colour 'B', each with the place of the patches — source/kernel.cpp:9253-9270, 9456-10735. -/
def sealedAll (d : P) (junk : Nat) (S : Soup P) (sm : Mesh P) (E : Env P) (starts : List (Nat × Nat)) (m1 : Mesh P) (polys1 : List (List Nat)) (below above : List Nat) (w : FragOptions) (wish : Wishes)
    (threads : Option Nat) (meaning : Bool → Place) (colours : List (Bool × List Nat)) : Option (List (Place × Mesh P × Info)) :=
  if w.keep.below || w.keep.above || w.keep.partly || wish.sealedIn || wish.sealedOut then
    (allStarts E.two E.traced starts).bind (fun st =>
      colours.foldlM (fun out c =>
        if sealedAt wish (meaning c.1) then
          (stitchColour E st m1 polys1 c.2).bind (fun s =>
            (sealedList d s (sealedArgs m1 E.base (sealedTables d junk S sm E.m0 E.two.faceOf s) below above w) threads).map (fun l => out ++ l.map (fun x => (meaning c.1, x))))
        else some out) [])
  else some []

end Mcut.Stitch
