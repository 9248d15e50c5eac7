import Verif.Model.Soup
import Verif.Model.Bvh
import Mathlib.Data.List.Sort

/-!
# From candidate face pairs to candidate edge/face pairs (source/kernel.cpp:1778-2161)

The broad phase hands the kernel a `std::map` from each face of the merged mesh "ps" to the faces it may meet; here a list with strictly increasing keys. The kernel
turns it into an `std::unordered_map` from edges to sorted vectors of faces (`EdgeMap`; `none`: no entry), in one of two ways: with the thread pool (blocks of the
map, then merging), or by a breadth-first search over neighbouring faces. Then pairs with disjoint boxes are removed. `none` as result: undefined behaviour (empty
range in `parallel_for`, dereferencing or erasing `end()`).
-/
namespace Mcut.Pairs
open Mcut.Hmesh Mcut.Sched Mcut.Box

/-- `ps_face_to_potentially_intersecting_others` — include/mcut/internal/kernel.h:133. -/
abbrev FaceMap := List (Nat × List Nat)
/-- `ps_edge_face_intersection_pairs` — source/kernel.cpp:1782. -/
abbrev EdgeMap := Nat → Option (List Nat)

/-- The map that the broad phase builds (see `Bvh.mapEntry`) from the reported pairs — source/bvh.cpp:654-655: the keys are the faces with at least one entry. -/
def faceMap (nS nC : Nat) (out : List (Nat × Nat)) : FaceMap :=
  ((List.range (nS + nC)).filter (fun f => !(Bvh.mapEntry nS out f).isEmpty)).map (fun f => (f, Bvh.mapEntry nS out f))

variable {P : Type}

/-- `std::lower_bound` and insertion if missing — source/kernel.cpp:1810-1814, 1843-1847, 1962-1967. -/
def insertId (x : Nat) (l : List Nat) : List Nat :=
  let a := l.takeWhile (fun y => decide (y < x))
  let b := l.dropWhile (fun y => decide (y < x))
  if b.head? = some x then l else a ++ x :: b

/-- `std::sort` of descriptors — source/kernel.cpp:1804, 1905. -/
def sortIds (l : List Nat) : List Nat := l.insertionSort (· ≤ ·)

/-- One halfedge of a face with candidates `L` — source/kernel.cpp:1798-1817. -/
def addHalfedge (L : List Nat) (M : EdgeMap) (h : Nat) : EdgeMap :=
  match M (edgeOf h) with
  | none => upd M (edgeOf h) (some (sortIds L))
  | some [] => upd M (edgeOf h) (some (sortIds L))
  | some l => upd M (edgeOf h) (some (L.foldl (fun l g => insertId g l) l))

/-- `fn_compute_ps_edge_to_faces_map` on one block — source/kernel.cpp:1790-1821. -/
def block (ps : Mesh P) (pairs : FaceMap) : EdgeMap :=
  pairs.foldl (fun M kv => (ps.fh kv.1).foldl (addHalfedge kv.2) M) (fun _ => none)

/-- Merging the map of one future — source/kernel.cpp:1838-1851 (the order in which an `unordered_map` is traversed does not matter, the keys are different). -/
def mergeMaps (A B : EdgeMap) : EdgeMap := fun e =>
  match B e, A e with
  | none, a => a
  | some l, none => some l
  | some l, some l0 => some (l.foldl (fun l g => insertId g l) l0)

/-- With the thread pool — source/kernel.cpp:1785-1853. The calling thread's block is the last one; it is the map into which the others are merged. -/
def parallelPairs (ps : Mesh P) (pairs : FaceMap) (avail : Nat) : Option EdgeMap :=
  match parallelForBlocks pairs.length avail 1024 with
  | .error _ => none
  | .ok bs =>
    let maps := bs.map (fun b => block ps ((pairs.drop b.1).take (b.2 - b.1)))
    maps.getLast?.map (fun m => maps.dropLast.foldl mergeMaps m)

/-- State of the breadth-first search — source/kernel.cpp:1859-1882. The bit vectors are functions; their indices are in range for a mesh without removed elements. -/
structure Bfs where
  unvisited : List Nat
  enq : Nat → Bool
  vis : Nat → Bool
  M : EdgeMap
  queue : List Nat

/-- One halfedge of the current face — source/kernel.cpp:1932-1969: `L` its sorted candidates, `neigh` `get_faces_around_face`, `idx` the position of `h`. -/
def visitHalfedge (ps : Mesh P) (pairs : FaceMap) (f : Nat) (L : List Nat) (s : Bfs) (ih : Nat × Nat) : Bfs :=
  let e := edgeOf ih.2
  let neigh := ps.facesAroundFace f
  if s.vis e = false then
    let M := if (s.M e).isSome then s.M else upd s.M e (some L)
    let s := { s with M := M, vis := upd s.vis e true }
    let opp := if neigh.length ≠ (ps.fh f).length then ps.face (opposite ih.2) else neigh[ih.1]?
    match opp with
    | none => s
    | some g =>
      if s.enq g = false ∧ (neigh.filter (fun g => pairs.any (fun kv => kv.1 == g))).contains g then
        { s with queue := s.queue ++ [g], enq := upd s.enq g true }
      else s
  else { s with M := upd s.M e (some (L.foldl (fun l g => insertId g l) ((s.M e).getD []))) }

/-- One face taken from the queue — source/kernel.cpp:1890-1970. `none`: `erase(end())`, or the face is no key (`end()->second`). -/
def visit (ps : Mesh P) (pairs : FaceMap) (s : Bfs) (f : Nat) : Option Bfs :=
  let i := (s.unvisited.takeWhile (fun y => decide (y < f))).length
  if i = s.unvisited.length then none
  else
    match pairs.find? (fun kv => kv.1 == f) with
    | none => none
    | some kv =>
      some (((ps.fh f).zipIdx.map (fun p => (p.2, p.1))).foldl (visitHalfedge ps pairs f (sortIds kv.2)) { s with unvisited := s.unvisited.eraseIdx i })

/-- The two nested loops — source/kernel.cpp:1881-1981; `fuel` bounds the number of iterations (`C61_sequential`: it suffices). -/
def seqLoop (ps : Mesh P) (pairs : FaceMap) : Nat → Bfs → Option EdgeMap
  | 0, _ => none
  | fuel + 1, s =>
    match s.queue with
    | f :: q => (visit ps pairs { s with queue := q } f).bind (seqLoop ps pairs fuel)
    | [] =>
      match s.unvisited.getLast? with
      | none => some s.M
      | some f => seqLoop ps pairs fuel { s with queue := [f] }

/-- Without the thread pool — source/kernel.cpp:1855-1982. -/
def sequentialPairs (ps : Mesh P) (pairs : FaceMap) : Option EdgeMap :=
  match pairs with
  | [] => none
  | kv :: _ => seqLoop ps pairs (2 * pairs.length + 1)
      ⟨pairs.map Prod.fst, upd (fun _ => false) kv.1 true, fun _ => false, fun _ => none, [kv.1]⟩

/-- Either variant (`none`: without the thread pool). -/
def edgeMap (ps : Mesh P) (pairs : FaceMap) : Option Nat → Option EdgeMap
  | none => sequentialPairs ps pairs
  | some t => parallelPairs ps pairs t

section cull
variable {α : Type} [LinearOrder α]

/-- The box of an edge — source/kernel.cpp:2005-2011, 2040-2047. -/
def edgeBox (bot top : α) (ps : Mesh (V3 α)) (e : Nat) : BBox α := boxOfPoints bot top [ps.pos (ps.edgeVertex e 0), ps.pos (ps.edgeVertex e 1)]

/-- Removal of the pairs with disjoint boxes — source/kernel.cpp:2055-2158: `bS`, `bC` are the boxes of the source and cut mesh faces, `smF` the number of source
faces. The blocks of the parallel version touch different entries. -/
def cull (bot top : α) (bS bC : Nat → BBox α) (smF : Nat) (ps : Mesh (V3 α)) (M : EdgeMap) : EdgeMap := fun e =>
  (M e).map (fun l => l.filter (fun g => intersect (edgeBox bot top ps e) (if g < smF then bS g else bC (g - smF))))

/-- The whole stage. -/
def candidates (bot top : α) (bS bC : Nat → BBox α) (smF : Nat) (ps : Mesh (V3 α)) (pairs : FaceMap) (threads : Option Nat) : Option EdgeMap :=
  (edgeMap ps pairs threads).map (cull bot top bS bC smF ps)

end cull
end Mcut.Pairs
