import Verif.Model.CutEdges
import Verif.Model.Geom

/-!
# Edges on the boundaries of the faces (source/kernel.cpp:4224-4848)

After the cut edges, the edges of the merged mesh "ps" are added to "m0", each divided at its intersection points. Edges with more than one point first ("part 1"), then
the others ("part 2"), with or without the thread pool. `pts` is `ps_intersecting_edges`. The table `ps_to_m0_vtx` is the identity (C60), so the vertices of "ps" have the
same numbers in "m0". The intersection points are the vertices from `base` (`ps_vtx_cnt`) on.
-/
namespace Mcut.Boundary
open Mcut.Hmesh Mcut.Registry
variable {P : Type}

/-- "m0", `ps_iface_to_m0_edge_list`, `ivtx_to_incoming_hlist`, `ps_to_m0_edges`, `ps_to_m0_non_intersecting_edge` — source/kernel.cpp:4349-4353, 4444-4446. -/
structure St (P : Type) where
  m0 : Mesh P
  faceEdges : Nat → List Nat
  incoming : Nat → List Nat
  chains : Nat → List Nat
  plain : Nat → Option Nat

/-- The tables when the stage begins: "m0" and two of the tables are those of the cut edges (`Model/CutEdges.lean`). -/
def start (c : CutEdges.St P) : St P := ⟨c.m0, c.faceEdges, c.incoming, fun _ => [], fun _ => none⟩

/-- `dot_product(orig - p, normalize(orig - dst))` without the division by the length, which does not change the order — source/kernel.cpp:1511-1518. -/
def projection {K : Type} [Field K] (orig dst p : Geom.V3 K) : K :=
  (orig.x - p.x) * (orig.x - dst.x) + (orig.y - p.y) * (orig.y - dst.y) + (orig.z - p.z) * (orig.z - dst.z)

/-- `linear_projection_sort`: what it may return for the points `o :: d :: l` (`std::sort` may order equal elements in any way) — source/kernel.cpp:1498-1534. -/
def ProjectionSorted {K : Type} [Field K] [LinearOrder K] (pos : Nat → Geom.V3 K) (o d : Nat) (l r : List Nat) : Prop :=
  r.Perm (o :: d :: l) ∧ r.Pairwise (fun v w => projection (pos o) (pos d) (pos v) ≤ projection (pos o) (pos d) (pos w))

/-- The faces on the two sides of an edge — the loops of source/kernel.cpp:4409-4421, 4497-4512, 4589-4600, 4763-4773, 4832-4843. -/
def facesOf (ps : Mesh P) (e : Nat) : List Nat := [ps.face (halfedgeOf e 0), ps.face (halfedgeOf e 1)].filterMap id

/-- Part 1, one edge: `ps` edge `e` is divided by edges between the consecutive sorted vertices; the flag says that it is the first round — source/kernel.cpp:4375-4423. -/
def chain (ps : Mesh P) (e : Nat) : Bool → List Nat → St P → St P
  | first, v :: w :: rest, st =>
    let r := st.m0.addEdge v w
    let inc := if first then push st.incoming w r.2
      else if rest.isEmpty then push st.incoming v (opposite r.2)
      else push (push st.incoming w r.2) v (opposite r.2)
    chain ps e false (w :: rest)
      ⟨r.1, (facesOf ps e).foldl (fun M f => push M f (edgeOf r.2)) st.faceEdges, inc, push st.chains e (edgeOf r.2), st.plain⟩
  | _, _, st => st

/-- Part 1; `order` is the order of the hash map `ps_edge_to_sorted_descriptors`, whose keys are the edges with more than one point, and `sort o d l` is what
`linear_projection_sort` returns for `o`, `d` and `l` — source/kernel.cpp:4246-4425. -/
def part1 (ps : Mesh P) (pts : Nat → List Nat) (sort : Nat → Nat → List Nat → List Nat) (order : List Nat) (st : St P) : St P :=
  order.foldl (fun st e => chain ps e true (sort (ps.edgeVertex e 0) (ps.edgeVertex e 1) (pts e)) st) st

/-- The order in which three vertices are joined — the three cases of source/kernel.cpp:4528-4587, 4788-4829. -/
def three (base a b c : Nat) : Nat × Nat × Nat := if a < base then (if base ≤ b then (a, b, c) else (a, c, b)) else (b, a, c)

/-- Part 2, one edge, without thread pool. `known f`: there is an entry for face `f` (looked up before the edge is added; the edge itself never makes an entry in the case
in which it is asked for) — source/kernel.cpp:4733-4845. -/
def edgeStep (ps : Mesh P) (base : Nat) (pts : Nat → List Nat) (known : Nat → Bool) (st : St P) (e : Nat) : St P :=
  match pts e with
  | [] =>
    let r := st.m0.addEdge (ps.edgeVertex e 1) (ps.edgeVertex e 0)
    ⟨r.1, (facesOf ps e).foldl (fun M f => if known f then push M f (edgeOf r.2) else M) st.faceEdges, st.incoming, st.chains, upd st.plain e (some (edgeOf r.2))⟩
  | [x] =>
    let t := three base (ps.edgeVertex e 0) (ps.edgeVertex e 1) x
    let r := st.m0.addEdge t.1 t.2.1
    let q := r.1.addEdge t.2.1 t.2.2
    ⟨q.1, (facesOf ps e).foldl (fun M f => push (push M f (edgeOf r.2)) f (edgeOf q.2)) st.faceEdges,
      push (push st.incoming t.2.1 r.2) t.2.1 (opposite q.2), st.chains, st.plain⟩
  | _ => st

/-- `ps_iface_to_m0_edge_list.find(f) != ps_iface_to_m0_edge_list.cend()` — source/kernel.cpp:4506, 4768. -/
def entry (st : St P) (f : Nat) : Bool := !(st.faceEdges f).isEmpty

/-- Part 2 without thread pool — source/kernel.cpp:4733-4845. -/
def sequential (ps : Mesh P) (base : Nat) (pts : Nat → List Nat) (edges : List Nat) (st : St P) : St P :=
  edges.foldl (fun st e => edgeStep ps base pts (entry st) st e) st

/-- The output of one block: edges (by their ends) and tables with local numbers — source/kernel.cpp:4451-4458. The hash map with unique keys is a list of pairs. -/
structure Local where
  edges : List (Nat × Nat)
  plain : List (Nat × Nat)
  faces : Nat → List Nat
  incoming : Nat → List Nat

/-- Part 2 with thread pool, one edge of a block — source/kernel.cpp:4473-4602. -/
def localStep (ps : Mesh P) (base : Nat) (pts : Nat → List Nat) (known : Nat → Bool) (L : Local) (e : Nat) : Local :=
  match pts e with
  | [] =>
    let i := L.edges.length
    ⟨L.edges ++ [(ps.edgeVertex e 1, ps.edgeVertex e 0)], L.plain ++ [(e, i)], (facesOf ps e).foldl (fun M f => if known f then push M f i else M) L.faces, L.incoming⟩
  | [x] =>
    let t := three base (ps.edgeVertex e 0) (ps.edgeVertex e 1) x
    let i := L.edges.length
    ⟨L.edges ++ [(t.1, t.2.1), (t.2.1, t.2.2)], L.plain, (facesOf ps e).foldl (fun M f => push (push M f i) f (i + 1)) L.faces,
      push (push L.incoming t.2.1 (i * 2)) t.2.1 ((i + 1) * 2 + 1)⟩
  | _ => L

/-- `fn_compute_polygon_boundary_edges`: a block; `known e f` is what the lookup for face `f` gives when edge `e` is dealt with — source/kernel.cpp:4460-4606. -/
def localOf (ps : Mesh P) (base : Nat) (pts : Nat → List Nat) (known : Nat → Nat → Bool) (block : List Nat) : Local :=
  block.foldl (fun L e => localStep ps base pts (known e) L e) ⟨[], [], fun _ => [], fun _ => []⟩

/-- The edges of a block are added to "m0"; the second component is `emap` — source/kernel.cpp:4636-4649. -/
def addLocal (edges : List (Nat × Nat)) (m0 : Mesh P) : Mesh P × List Nat :=
  edges.foldl (fun s x => ((s.1.addEdge x.1 x.2).1, s.2 ++ [edgeOf (s.1.addEdge x.1 x.2).2])) (m0, [])

/-- `merge_local_m0_edges`. `emap.at(i)` throws when out of range; the theorems show that this does not happen — source/kernel.cpp:4625-4678. -/
def merge (L : Local) (st : St P) : St P :=
  let r := addLocal L.edges st.m0
  ⟨r.1, fun f => st.faceEdges f ++ (L.faces f).map (fun i => r.2.getD i 0),
    fun v => st.incoming v ++ (L.incoming v).map (fun h => halfedgeOf (r.2.getD (h / 2) 0) (h % 2)),
    st.chains, L.plain.foldl (fun M x => upd M x.1 (some (r.2.getD x.2 0))) st.plain⟩

/-- Part 2 with thread pool: the block of the calling thread is merged first, then those of the other threads in order. The other threads may still be at work while earlier
blocks are merged: `seen i e` is the number of merges that had been done when block `i` looked up the faces of edge `e`. `hist` are the states so far —
source/kernel.cpp:4608-4722. -/
def mergeAll (ps : Mesh P) (base : Nat) (pts : Nat → List Nat) (seen : Nat → Nat → Nat) : List (List Nat) → List (St P) → St P → St P
  | [], _, st => st
  | block :: rest, hist, st =>
    let known := fun e f => entry ((hist ++ [st]).getD (seen hist.length e) st) f
    mergeAll ps base pts seen rest (hist ++ [st]) (merge (localOf ps base pts known block) st)

/-- Part 2 with thread pool — source/kernel.cpp:4448-4722. -/
def parallel (ps : Mesh P) (base : Nat) (pts : Nat → List Nat) (seen : Nat → Nat → Nat) (blocks : List (List Nat)) (st : St P) : St P :=
  mergeAll ps base pts seen blocks [] st

end Mcut.Boundary
