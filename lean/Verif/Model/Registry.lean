import Verif.Model.Pairs

/-!
# Recording the intersection points (source/kernel.cpp:2340-3160)

The kernel tests every candidate pair of an edge and a face and records the intersection points in several tables, with or without the thread pool. The test itself
(`Model/Narrow.lean`) is a parameter here. The hash maps and the ordered map, whose entries are only ever created by appending to them, are functions to lists (`[]`:
no entry); descriptors are natural numbers, face counts are below 2^31 (`ps_is_cutmesh_face` compares as `int`).
-/
namespace Mcut.Registry
open Mcut.Hmesh Mcut.Sched
variable {P : Type}

/-- The outcome of the test of one edge against one face. -/
inductive Outcome (P : Type) | miss | violation | point (p : P)

/-- The tables — source/kernel.cpp:2352-2392 and 2398-2407: the points in the order in which they are added to "m0", the registry, the re-entrant vertices on the border
of the cut mesh, the points of each edge, of each pair of faces (source mesh face first), of each face, and the flag for partial cuts. -/
structure Tables (P : Type) where
  pts : List P
  reg : List (Nat × Nat)
  border : List Nat
  edges : Nat → List Nat
  cut : Nat × Nat → List Nat
  faces : Nat → List Nat
  partialCut : Bool

/-- Freshly constructed tables. -/
def Tables.empty : Tables P := ⟨[], [], [], fun _ => [], fun _ => [], fun _ => [], false⟩

/-- `m[k].push_back(v)`. -/
def push {κ : Type} [DecidableEq κ] (m : κ → List Nat) (k : κ) (v : Nat) : κ → List Nat := fun k' => if k' = k then m k ++ [v] else m k'

/-- `if (k != null_face()) m[k].push_back(v)`. -/
def pushIf {κ : Type} [DecidableEq κ] (m : κ → List Nat) (k : Option κ) (v : Nat) : κ → List Nat :=
  match k with
  | none => m
  | some k => push m k v

/-- `tested_edge_face` — source/kernel.cpp:2454-2456, 2862-2864. -/
def edgeFace (ps : Mesh P) (e : Nat) : Option Nat :=
  match ps.face (halfedgeOf e 0) with
  | some g => some g
  | none => ps.face (halfedgeOf e 1)

/-- `ps_is_cutmesh_face` — source/kernel.cpp:155-158 (the null descriptor is -1 as `int`). -/
def isCutFace (smF : Nat) : Option Nat → Bool
  | none => false
  | some g => decide (smF ≤ g)

/-- The second face of the edge: `face_pqs` and `tested_edge_face_other` — source/kernel.cpp:2571, 2595, 3031, 3107. -/
def otherFace (ps : Mesh P) (e : Nat) : Option Nat :=
  if edgeFace ps e = ps.face (halfedgeOf e 0) then ps.face (halfedgeOf e 1) else none

/-- `std::numeric_limits<uint32_t>::max()`, the null descriptor, as key. -/
def nullId : Nat := 4294967295

/-- Recording one point `p` as vertex `v`: `e` is the tested edge, `f` the tested face; `smV`, `smF` are the numbers of vertices and faces of the source mesh —
source/kernel.cpp:2569-2615 (with the thread pool; `v` is the number of points found before by the same job), 3028-3138 (without it). -/
def record (ps : Mesh P) (smV smF : Nat) (s : Tables P) (v : Nat) (e f : Nat) (p : P) : Tables P :=
  let ef := (edgeFace ps e).getD nullId
  let cm := isCutFace smF (edgeFace ps e)
  let cut :=
    if cm then pushIf (push s.cut (f, ef) v) ((otherFace ps e).map (fun g => (f, g))) v
    else pushIf (push s.cut (ef, f) v) ((otherFace ps e).map (fun g => (g, f))) v
  let border := if cm && ps.isBorder e then s.border ++ [v] else s.border
  let faces := pushIf (pushIf (push s.faces f v) (ps.face (halfedgeOf e 0)) v) (ps.face (halfedgeOf e 1)) v
  let partialCut :=
    if s.partialCut then true
    else decide (smV ≤ (ps.source (halfedgeOf e 0)).getD 0) && ((ps.face (halfedgeOf e 0)).isNone || (ps.face (halfedgeOf e 1)).isNone)
  ⟨s.pts ++ [p], s.reg ++ [(e, f)], border, push s.edges e v, cut, faces, partialCut⟩

/-- The inner loop: the faces against which edge `e` is tested. `none`: general position is violated, the caller returns at once — source/kernel.cpp:2459-2619, 2869-3143. -/
def testFaces (ps : Mesh P) (smV smF base : Nat) (test : Nat → Nat → Outcome P) (e : Nat) : List Nat → Tables P → Option (Tables P)
  | [], s => some s
  | f :: fs, s =>
    match test e f with
    | .miss => testFaces ps smV smF base test e fs s
    | .violation => none
    | .point p => testFaces ps smV smF base test e fs (record ps smV smF s (base + s.pts.length) e f p)

/-- The outer loop: the edges in the order of the hash map — source/kernel.cpp:2431-2620, 2840-3145. -/
def testEdges (ps : Mesh P) (smV smF base : Nat) (test : Nat → Nat → Outcome P) : List (Nat × List Nat) → Tables P → Option (Tables P)
  | [], s => some s
  | x :: xs, s => (testFaces ps smV smF base test x.1 x.2 s).bind (testEdges ps smV smF base test xs)

/-- Without the thread pool: the vertices are numbered from `ps_vtx_cnt`, the number of vertices "m0" has at this point — source/kernel.cpp:2839-3145. -/
def sequential (ps : Mesh P) (smV smF psV : Nat) (test : Nat → Nat → Outcome P) (cand : List (Nat × List Nat)) : Option (Tables P) :=
  testEdges ps smV smF psV test cand .empty

/-- One job of the thread pool; it numbers the points from 0 — source/kernel.cpp:2411-2623. -/
def job (ps : Mesh P) (smV smF : Nat) (test : Nat → Nat → Outcome P) (cand : List (Nat × List Nat)) : Option (Tables P) :=
  testEdges ps smV smF 0 test cand .empty

/-- The output of the calling thread, with the numbers shifted by `ps_vtx_cnt` — source/kernel.cpp:2636-2677. -/
def shift (psV : Nat) (t : Tables P) : Tables P :=
  { t with border := t.border.map (psV + ·), edges := fun e => (t.edges e).map (psV + ·), cut := fun k => (t.cut k).map (psV + ·),
           faces := fun f => (t.faces f).map (psV + ·) }

/-- Appending the numbers of one future to an existing entry, except those found in it: `seek` is the number that `std::find` looks for, given the number in the
future — source/kernel.cpp:2754-2760 (which looks for the number in the future itself), 2783-2789, 2808-2814. -/
def appendNew (seek : Nat → Nat) (base : Nat) (old new : List Nat) : List Nat :=
  new.foldl (fun acc j => if acc.contains (seek j) then acc else acc ++ [base + j]) old

/-- Merging one map of a future — source/kernel.cpp:2747-2771, 2774-2798, 2801-2823. -/
def mergeMap {κ : Type} (seek : Nat → Nat) (base : Nat) (m n : κ → List Nat) : κ → List Nat := fun k =>
  if (n k).isEmpty then m k
  else if !(m k).isEmpty then appendNew seek base (m k) (n k)
  else (n k).map (base + ·)

/-- Merging the output of one future; `base` is `intersection_point_descr_baseoffset` — source/kernel.cpp:2712-2830. -/
def mergeFuture (base : Nat) (acc t : Tables P) : Tables P :=
  ⟨acc.pts ++ t.pts, acc.reg ++ t.reg, acc.border ++ t.border.map (base + ·),
    mergeMap (fun j => j) base acc.edges t.edges, mergeMap (fun j => base + j) base acc.cut t.cut, mergeMap (fun j => base + j) base acc.faces t.faces,
    acc.partialCut || t.partialCut⟩

/-- A job: not started, running, finished with its output. -/
inductive Phase (P : Type) | idle | running | finished (t : Tables P)

/-- The shared state while the jobs run: `ok`: `output.status` is `SUCCESS`; `next`: the number of futures the calling thread has dealt with; `okSeen`:
`status_is_okay` — source/kernel.cpp:2625-2830. -/
structure Par (P : Type) where
  ok : Bool
  master : Phase P
  worker : Nat → Phase P
  next : Nat
  okSeen : Bool
  acc : Tables P

/-- Before `parallel_for`. -/
def Par.init : Par P := ⟨true, .idle, fun _ => .idle, 0, true, .empty⟩

/-- What a job does when it starts: it reads the status — source/kernel.cpp:2424-2428. -/
def begin (ok : Bool) : Phase P := if ok then .running else .finished .empty

/-- What a job leaves in the status when it ends: a violation is stored by compare-exchange from `SUCCESS` — source/kernel.cpp:2516-2527, 2549-2559. -/
def endStatus (ok : Bool) (r : Option (Tables P)) : Bool := if r.isNone then false else ok

/-- The output of a job; none if it returned early — source/kernel.cpp:2525, 2557, 2622. -/
def endOutput (r : Option (Tables P)) : Tables P := r.getD .empty

/-- One step of some thread: `M` is the block of the calling thread, `W` are the blocks of the futures — source/kernel.cpp:2411-2835, include/mcut/internal/tpool.h:422-471. -/
inductive Step (ps : Mesh P) (smV smF psV : Nat) (test : Nat → Nat → Outcome P) (M : List (Nat × List Nat)) (W : List (List (Nat × List Nat))) :
    Par P → Par P → Prop
  | startWorker (s) (i : Nat) (hi : i < W.length) (h : s.worker i = .idle) :
      Step ps smV smF psV test M W s { s with worker := upd s.worker i (begin s.ok) }
  | endWorker (s) (i : Nat) (w : List (Nat × List Nat)) (hi : W[i]? = some w) (h : s.worker i = .running) :
      Step ps smV smF psV test M W s { s with ok := endStatus s.ok (job ps smV smF test w),
                                              worker := upd s.worker i (.finished (endOutput (job ps smV smF test w))) }
  | startMaster (s) (h : s.master = .idle) : Step ps smV smF psV test M W s { s with master := begin s.ok, acc := .empty }
  | endMaster (s) (h : s.master = .running) :
      Step ps smV smF psV test M W s { s with ok := endStatus s.ok (job ps smV smF test M), master := .finished (endOutput (job ps smV smF test M)),
                                              acc := shift psV (endOutput (job ps smV smF test M)) }
  | merge (s) (t u : Tables P) (hm : s.master = .finished u) (hn : s.next < W.length) (h : s.worker s.next = .finished t) :
      Step ps smV smF psV test M W s { s with next := s.next + 1, okSeen := s.ok,
                                              acc := if s.ok then mergeFuture (psV + s.acc.pts.length) s.acc t else s.acc }

/-- All executions of the stage with the thread pool. -/
inductive Reach (ps : Mesh P) (smV smF psV : Nat) (test : Nat → Nat → Outcome P) (M : List (Nat × List Nat)) (W : List (List (Nat × List Nat))) : Par P → Prop
  | init : Reach ps smV smF psV test M W .init
  | step {s t} (h : Reach ps smV smF psV test M W s) (h' : Step ps smV smF psV test M W s t) : Reach ps smV smF psV test M W t

/-- The calling thread has left the stage — source/kernel.cpp:2683-2688, 2828-2836. -/
def Par.Done (s : Par P) (W : List (List (Nat × List Nat))) : Prop := (∃ u, s.master = .finished u) ∧ s.next = W.length

/-- What the stage leaves: `none` if it returned because of a violation — source/kernel.cpp:2683-2688 (no futures: the status is read then), 2829-2836. -/
def Par.result (s : Par P) (W : List (List (Nat × List Nat))) : Option (Tables P) :=
  if W.isEmpty then (if s.ok then some s.acc else none) else if s.okSeen then some s.acc else none

end Mcut.Registry
