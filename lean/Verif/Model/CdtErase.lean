import Verif.Model.Cdt

/-!
# The triangulation of a face: fixed edges, and erasing what is outside

Models `triangulator_t::erase_outer_triangles` (include/mcut/internal/cdt/triangulate.h) with the functions it calls, and `check_topology` (include/mcut/internal/cdt/cdt.h): frontend.cpp:1550-1564. Of `insert_edge` only the case is
modelled that the edge is already in the triangulation. There are no dummies (`insert_edges` erases them at its end, triangulate.h:992). `overlapCount` and `pieceToOriginals` are not modelled: the frontend does not read them.
-/
namespace Mcut.Cdt
open Mcut.Geom

/-- `edge_t`: the smaller vertex first — cdt/utils.h:96-133. -/
def edge (a b : Nat) : Nat × Nat := if a < b then (a, b) else (b, a)

/-- `check_vertices_share_edge` — cdt/utils.h:416-422. -/
def shareEdge (s : St) (a b : Nat) : Option Bool := (s.vt[a]?).bind fun la => (s.vt[b]?).map fun lb => la.any (lb.contains ·)

/-- `insert_edge`, for an edge between vertices that share a triangle: the edge becomes fixed. `none`: the edge has to be forced into the triangulation, which is not modelled — cdt/triangulate.h:1342-1359. -/
def insertEdge (s : St) (fixed : List (Nat × Nat)) (e : Nat × Nat) : Option (List (Nat × Nat)) :=
  if e.1 = e.2 then some fixed
  else (shareEdge s e.1 e.2).bind fun b => if b then some (if e ∈ fixed then fixed else e :: fixed) else none

/-- `insert_edges` with the edges of a face with `n` corners — cdt/triangulate.h:974-993, frontend.cpp:1526-1528, 1550. -/
def insertEdges (s : St) (n : Nat) : Option (List (Nat × Nat)) :=
  (List.range n).foldlM (fun fixed i => insertEdge s fixed (edge (i + 3) ((i + 1) % n + 3))) []

/-- One round of the loop over the sides of a triangle in `grow_to_boundary`; the stack has its top first — cdt/triangulate.h:1250-1257. -/
def pushSide (fixed : List (Nat × Nat)) (t : Tri) (traversed : List Nat) (stack : List Nat) (i : Fin 3) : List Nat :=
  if edge (t.v (i + 1)) (t.v (i + 2)) ∈ fixed then stack
  else match t.n (i + 1) with
    | none => stack
    | some k => if k ∈ traversed then stack else k :: stack

/-- `grow_to_boundary`; the first argument bounds the number of rounds — cdt/triangulate.h:1240-1260. -/
def grow (fixed : List (Nat × Nat)) (ts : List Tri) : Nat → List Nat → List Nat → Option (List Nat)
  | _, [], traversed => some traversed
  | 0, _ :: _, _ => none
  | fuel + 1, k :: rest, traversed => (ts[k]?).bind fun t =>
    let traversed' := if k ∈ traversed then traversed else k :: traversed
    grow fixed ts fuel (pushSide fixed t traversed' (pushSide fixed t traversed' (pushSide fixed t traversed' rest 0) 1) 2) traversed'

/-- The triangles that stay, in their order — cdt/triangulate.h:1148-1155. -/
def keptOf (removed : List Nat) (len : Nat) : List Nat := (List.range len).filter (fun k => !removed.contains k)

/-- The new number of a neighbour; `triIndMap[]` gives 0 for an unknown key — cdt/triangulate.h:1163-1169. -/
def renumber (removed kept : List Nat) (n : Option Nat) : Option Nat :=
  n.bind fun k => if k ∈ removed then none else some (if k ∈ kept then kept.idxOf k else 0)

/-- `remove_triangles`, on the triangles: the ones that stay move to the front, and as many are erased at the end as there are removed numbers — cdt/triangulate.h:1141-1171. -/
def removeTris (removed : List Nat) (ts : List Tri) : List Tri :=
  if removed = [] then ts
  else
    let kept := keptOf removed ts.length
    ((kept.filterMap (ts[·]?) ++ ts.drop kept.length).take (ts.length - removed.length)).map (fun t => ⟨t.v, fun i => renumber removed kept (t.n i)⟩)

/-- The state after `erase_outer_triangles`. -/
structure Done where
  tris : List Tri
  fixed : List (Nat × Nat)
  vt : List (List Nat)

/-- `finalise_triangulation`: the corners of the super-triangle go, so all vertices get smaller numbers. `none`: a number below 3 would wrap around — cdt/triangulate.h:1136-1139, 1173-1230. -/
def finalise (removed : List Nat) (s : St) (fixed : List (Nat × Nat)) : Option Done :=
  let ts := removeTris removed s.tris
  if (fixed.all (fun e => 3 ≤ e.1 && 3 ≤ e.2)) && ts.all (fun t => 3 ≤ t.v 0 && 3 ≤ t.v 1 && 3 ≤ t.v 2) then
    some ⟨ts.map (fun t => ⟨fun i => t.v i - 3, t.n⟩), fixed.map (fun e => edge (e.1 - 3) (e.2 - 3)), if removed = [] then s.vt.drop 3 else []⟩
  else none

/-- `erase_outer_triangles` — cdt/triangulate.h:1110-1117. -/
def eraseOuter (s : St) (fixed : List (Nat × Nat)) : Option Done :=
  (s.vt[0]?).bind fun l => (l.head?).bind fun seed => (grow fixed s.tris (3 * s.tris.length + 1) [seed] []).bind fun removed => finalise removed s fixed

/-- `get_vertex_to_triangles_map`: undefined for a corner that is not a vertex — cdt/cdt.h:46-65. -/
def vertexMap (ts : List Tri) (n : Nat) : Option (List (List Nat)) :=
  if ts.all (fun t => t.v 0 < n && t.v 1 < n && t.v 2 < n) then
    some ((List.range n).map (fun v => (List.range ts.length).flatMap (fun k => match ts[k]? with
      | none => []
      | some t => (if t.v 0 = v then [k] else []) ++ (if t.v 1 = v then [k] else []) ++ (if t.v 2 = v then [k] else []))))
  else none

/-- `check_topology`, of `n` vertices; `none`: an access outside of an array — cdt/cdt.h:511-551. -/
def topology (d : Done) (n : Nat) : Option Bool :=
  (if d.vt = [] ∧ n ≠ 0 then vertexMap d.tris n else some d.vt).bind fun vt =>
    if (List.range n).all (fun v => match vt[v]? with | none => false | some l => l.all (fun k => decide (k < d.tris.length))) &&
        d.tris.all (fun t => [t.n 0, t.n 1, t.n 2].all (fun o => match o with | none => true | some k => decide (k < d.tris.length)) && [t.v 0, t.v 1, t.v 2].all (fun v => decide (v < vt.length))) then
      some (
        (List.range n).all (fun v => match vt[v]? with | none => true | some l => l.all (fun k => match d.tris[k]? with | none => true | some t => [t.v 0, t.v 1, t.v 2].contains v)) &&
        (List.range d.tris.length).all (fun k => match d.tris[k]? with
          | none => true
          | some t => [t.n 0, t.n 1, t.n 2].all (fun o => match o with
            | none => true
            | some k' => match d.tris[k']? with | none => true | some t' => [t'.n 0, t'.n 1, t'.n 2].contains (some k))) &&
        (List.range d.tris.length).all (fun k => match d.tris[k]? with
          | none => true
          | some t => [t.v 0, t.v 1, t.v 2].all (fun v => match vt[v]? with | none => true | some l => l.contains k)))
    else none

end Mcut.Cdt
