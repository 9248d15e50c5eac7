import Verif.Model.Boundary

/-!
# Tracing the polygons (source/kernel.cpp:4853-6177)

Every face of the merged mesh "ps" is replaced by polygons, which are lists of halfedges of "m0". A face without entry in `ps_iface_to_m0_edge_list` is copied, any other
face is divided along its cut edges. `st` are the tables of `Model/Boundary.lean`, `reg` the registry of intersection points (`m0_ivtx_to_intersection_registry_entry`), the
intersection points are the vertices of "m0" from `base` (`ps_vtx_cnt`) on, and `m0_to_ps_vtx`, `ps_to_m0_vtx` are identities (C60). `none` as result stands for undefined
behaviour of the code (a null descriptor or the end of a vector is dereferenced; the assertions that would notice are compiled out) or for an exception of a map.
-/
namespace Mcut.Trace
open Mcut.Hmesh Mcut.Registry
variable {P : Type}

/-- `source` of a halfedge that is known to have an opposite. -/
def src (m : Mesh P) (h : Nat) : Nat := (m.source h).getD 0

/-- The predicate given to `std::partition`: is edge `e` of "m0" on the boundary of the face? — source/kernel.cpp:4990-5015 (and again 5200-5218), 5633-5665. -/
def isBoundary (m0 : Mesh P) (base : Nat) (reg : List (Nat × Nat)) (e : Nat) : Bool :=
  let v0 := m0.edgeVertex e 0
  let v1 := m0.edgeVertex e 1
  !(decide (base ≤ v0) && decide (base ≤ v1)) || (reg[v0 - base]?).map (·.1) == (reg[v1 - base]?).map (·.1)

/-- The halfedge of edge `e` of "ps" that belongs to face `f` — source/kernel.cpp:5056-5063, 5089-5094, 5745-5752, 5779-5786. -/
def sideOf (ps : Mesh P) (e f : Nat) : Nat := if ps.face (halfedgeOf e 0) = some f then halfedgeOf e 0 else opposite (halfedgeOf e 0)

/-- The halfedges along the remaining pieces of a divided edge — source/kernel.cpp:5116-5127. -/
def follow (m0 : Mesh P) : Nat → List Nat → List Nat
  | _, [] => []
  | last, e :: es =>
    let h := if src m0 (halfedgeOf e 0) = m0.target last then halfedgeOf e 0 else halfedgeOf e 1
    h :: follow m0 h es

/-- The halfedges along a divided edge, from one of its ends to the other — source/kernel.cpp:5101-5127. -/
def chainFrom (m0 : Mesh P) (base : Nat) : List Nat → List Nat
  | [] => []
  | e :: es =>
    let h := if base ≤ src m0 (halfedgeOf e 0) then halfedgeOf e 1 else halfedgeOf e 0
    h :: follow m0 h es

/-- The outcome of looking at one halfedge: go on, take it, undefined behaviour. -/
inductive Look | no | take (h : Nat) | bad
  deriving DecidableEq

/-- The case of a halfedge between two intersection points of edge `pe` of "ps" — source/kernel.cpp:5089-5156, 5779-5895. -/
def lookInner (ps m0 : Mesh P) (base : Nat) (chains : Nat → List Nat) (f pe h : Nat) : Look :=
  let side := sideOf ps pe f
  let s := chainFrom m0 base (chains (edgeOf side))
  match s with
  | [] => .bad
  | first :: _ =>
    let s := if src m0 first = src ps side then s else s.map opposite
    match s.find? (fun g => decide (src m0 g = src m0 h ∧ m0.target g = m0.target h)) with
    | some g => .take g
    | none => .bad

/-- Is halfedge `h` of a boundary edge a halfedge of the boundary of face `f`, in its direction? — source/kernel.cpp:5029-5161, 5712-5899. -/
def look (ps : Mesh P) (st : Boundary.St P) (base : Nat) (reg : List (Nat × Nat)) (f h : Nat) : Look :=
  let s := src st.m0 h
  let t := st.m0.target h
  if s < base then
    if t < base then
      match ps.halfedge s t false with
      | some g => if ps.face g = some f then .take h else .no
      | none => .no
    else
      match reg[t - base]? with
      | some x => if s = src ps (sideOf ps x.1 f) then .take h else .no
      | none => .bad
  else if t < base then .no
  else
    match reg[s - base]?, reg[t - base]? with
    | some x, some y => if x.1 = y.1 then lookInner ps st.m0 base st.chains f y.1 h else .no
    | _, _ => .bad

/-- The search for the first boundary halfedge: the two halfedges of the boundary edges in turn — source/kernel.cpp:5021-5167, 5704-5908. -/
def search (ps : Mesh P) (st : Boundary.St P) (base : Nat) (reg : List (Nat × Nat)) (f : Nat) : List Nat → Look
  | [] => .no
  | e :: es =>
    match look ps st base reg f (halfedgeOf e 0) with
    | .no =>
      match look ps st base reg f (halfedgeOf e 1) with
      | .no => search ps st base reg f es
      | r => r
    | r => r

/-- The next boundary halfedge from vertex `v` among the edges not walked yet — source/kernel.cpp:5181-5232, 5929-5987. -/
def nextOutside (m0 : Mesh P) (base : Nat) (reg : List (Nat × Nat)) (v : Nat) (edges : List Nat) : Option Nat :=
  (edges.find? (fun e => (decide (m0.edgeVertex e 0 = v) || decide (m0.edgeVertex e 1 = v)) && isBoundary m0 base reg e)).map
    (fun e => if src m0 (halfedgeOf e 0) = v then halfedgeOf e 0 else halfedgeOf e 1)

/-- The walk around the face; `edges` are the boundary edges not walked yet. The first argument bounds the number of rounds: each round uses up an edge —
source/kernel.cpp:5171-5233, 5917-5988. -/
def outside (m0 : Mesh P) (base : Nat) (reg : List (Nat × Nat)) : Nat → Nat → List Nat → List Nat
  | 0, cur, _ => [cur]
  | n + 1, cur, edges =>
    let rest := edges.filter (· != edgeOf cur)
    match nextOutside m0 base reg (m0.target cur) rest with
    | none => [cur]
    | some h => cur :: outside m0 base reg n h rest

/-- The candidates to go on from vertex `v` — source/kernel.cpp:5331-5339. -/
def candidates (m0 : Mesh P) (v : Nat) (todo : List Nat) : List Nat := todo.filter (fun h => src m0 h = v)

/-- The choice of the next halfedge; `all` are the halfedges of the face, of which the first `k` are on its boundary — source/kernel.cpp:5331-5374, 6118-6165. -/
def pick (m0 : Mesh P) (all : List Nat) (k cur : Nat) (todo : List Nat) : Option Nat :=
  let c := candidates m0 (m0.target cur) todo
  if c.length = 2 then
    if all.idxOf cur < k then c.getLast?
    else if c.head? = some (opposite cur) then c.getLast? else c.head?
  else c.head?

/-- The look ahead when the walk is back at its start along the opposite of its first halfedge. (The test for an interior halfedge compares with a null descriptor.) —
source/kernel.cpp:5283-5319, 6060-6103. -/
def ahead (m0 : Mesh P) (all : List Nat) (k cur : Nat) (todo : List Nat) : Option Nat :=
  let c := candidates m0 (m0.target cur) todo
  if c.length = 2 ∧ all.idxOf cur < k then c.getLast? else none

/-- Is the polygon complete? — source/kernel.cpp:5275-5329, 6050-6115. -/
def closes (m0 : Mesh P) (all : List Nat) (k : Nat) (first cur : Nat) (child todo : List Nat) : Bool :=
  decide (3 ≤ child.length) && decide (src m0 first = m0.target cur) && (decide (cur ≠ opposite first) || (ahead m0 all k cur todo).any (fun h => child.contains h))

/-- One polygon: the walk from halfedge `cur`, `child` is what has been walked before; the result says whether the polygon is complete, and gives the halfedges walked and
those left. The first argument bounds the number of rounds: each round uses up a halfedge — source/kernel.cpp:5255-5375, 6023-6166. -/
def walk (m0 : Mesh P) (all : List Nat) (k first : Nat) : Nat → Nat → List Nat → List Nat → Bool × List Nat × List Nat
  | n, cur, child, todo =>
    let child := child ++ [cur]
    let todo := todo.erase cur
    if closes m0 all k first cur child todo then (true, child, todo)
    else
      match n with
      | 0 => (false, child, todo)
      | n + 1 =>
        match pick m0 all k cur todo with
        | none => (false, child, todo)
        | some h => walk m0 all k first n h child todo

/-- All polygons of a face — source/kernel.cpp:5251-5390, 6016-6177. -/
def polygonsOf (m0 : Mesh P) (all : List Nat) (k : Nat) : Nat → List Nat → List (List Nat)
  | 0, _ => []
  | _, [] => []
  | n + 1, h :: todo =>
    let r := walk m0 all k h todo.length h [] (h :: todo)
    if r.1 then r.2.1 :: polygonsOf m0 all k n r.2.2 else polygonsOf m0 all k n r.2.2

/-- The halfedges of an intersecting face: first those on its boundary, then both halfedges of its cut edges; with the number of the former. `part` is `std::partition`:
the edges with the property, and the others — source/kernel.cpp:4986-5249, 5629-6014. -/
def halfedgesOf (ps : Mesh P) (st : Boundary.St P) (base : Nat) (reg : List (Nat × Nat)) (part : (Nat → Bool) → List Nat → List Nat × List Nat) (f : Nat) :
    Option (List Nat × Nat) :=
  let r := part (isBoundary st.m0 base reg) (st.faceEdges f)
  match search ps st base reg f r.1 with
  | .take h =>
    let ext := outside st.m0 base reg r.1.length h r.1
    some (ext ++ r.2.flatMap (fun e => [halfedgeOf e 0, halfedgeOf e 1]), ext.length)
  | _ => none

/-- The polygons of an intersecting face — source/kernel.cpp:4954-5390. -/
def cutFace (ps : Mesh P) (st : Boundary.St P) (base : Nat) (reg : List (Nat × Nat)) (part : (Nat → Bool) → List Nat → List Nat × List Nat) (f : Nat) : Option (List (List Nat)) :=
  (halfedgesOf ps st base reg part f).map (fun r => polygonsOf st.m0 r.1 r.2 r.1.length r.1)

/-- The polygon of a face that is not intersecting — source/kernel.cpp:4918-4953, 5515-5568. -/
def copyFace (ps : Mesh P) (st : Boundary.St P) (f : Nat) : Option (List Nat) :=
  (ps.fh f).mapM (fun h => (st.plain (edgeOf h)).map (fun e =>
    if src st.m0 (halfedgeOf e 0) = src ps h ∧ st.m0.target (halfedgeOf e 0) = ps.target h then halfedgeOf e 0 else halfedgeOf e 1))

/-- `m0_polygons`, `m0_sm_cutpath_adjacent_polygons`, `m0_cm_cutpath_adjacent_polygons`, `traced_sm_polygon_count`, `m0_to_ps_face` — source/kernel.cpp:4869-4879. -/
structure Out where
  polygons : List (List Nat)
  sm : List Nat
  cm : List Nat
  smCount : Nat
  faceOf : Nat → Option Nat

/-- Nothing traced yet. -/
def Out.empty : Out := ⟨[], [], [], 0, fun _ => none⟩

/-- `faceOf[i] = f` for `n` numbers from `i` on. -/
def number (M : Nat → Option Nat) (i n f : Nat) : Nat → Option Nat := fun j => if i ≤ j ∧ j < i + n then some f else M j

/-- The polygons of face `f` are recorded — source/kernel.cpp:4950-4953, 5377-5397. -/
def add (smF f : Nat) (cutting : Bool) (children : List (List Nat)) (o : Out) : Out :=
  let i := o.polygons.length
  let ids := List.range' i children.length
  ⟨o.polygons ++ children, if cutting ∧ f < smF then o.sm ++ ids else o.sm, if cutting ∧ ¬ f < smF then o.cm ++ ids else o.cm,
    if f < smF then o.smCount + children.length else o.smCount, number o.faceOf i children.length f⟩

/-- The polygons of face `f`. -/
def facePolygons (ps : Mesh P) (st : Boundary.St P) (base : Nat) (reg : List (Nat × Nat)) (part : (Nat → Bool) → List Nat → List Nat × List Nat) (f : Nat) : Option (List (List Nat)) :=
  if Boundary.entry st f then cutFace ps st base reg part f else (copyFace ps st f).map (fun p => [p])

/-- The faces one after the other: the loop without thread pool, and that of a block — source/kernel.cpp:4906-5398, 5502-6190. -/
def sequential (ps : Mesh P) (st : Boundary.St P) (smF base : Nat) (reg : List (Nat × Nat)) (part : (Nat → Bool) → List Nat → List Nat × List Nat) (faces : List Nat) : Option Out :=
  faces.foldlM (fun o f => (facePolygons ps st base reg part f).map (fun l => add smF f (Boundary.entry st f) l o)) Out.empty

/-- `merge_local_traced_faces` — source/kernel.cpp:5416-5452. -/
def merge (o b : Out) : Out :=
  let k := o.polygons.length
  ⟨o.polygons ++ b.polygons, o.sm ++ b.sm.map (· + k), o.cm ++ b.cm.map (· + k), o.smCount + b.smCount,
    fun i => if k ≤ i ∧ (b.faceOf (i - k)).isSome then b.faceOf (i - k) else o.faceOf i⟩

/-- With thread pool: the blocks in order, the last one is that of the calling thread — source/kernel.cpp:5403-5499. -/
def parallel (ps : Mesh P) (st : Boundary.St P) (smF base : Nat) (reg : List (Nat × Nat)) (part : (Nat → Bool) → List Nat → List Nat × List Nat) (blocks : List (List Nat)) : Option Out :=
  blocks.foldlM (fun o block => (sequential ps st smF base reg part block).map (merge o)) Out.empty

end Mcut.Trace
