import Mathlib.Data.Fin.VecNotation
import Verif.Model.Geom

/-!
# The triangulation of a face: inserting the vertices

Models the first part of the constrained Delaunay triangulation that is used for `MC_CONNECTED_COMPONENT_DATA_FACE_TRIANGULATION`: `triangulator_t::insert_vertices` (include/mcut/internal/cdt/triangulate.h and
include/mcut/internal/cdt/utils.h). `frontend.cpp:1548-1549` calls it with the corners of a face. Coordinates are elements of an ordered field and the predicates are exact. `null_neighbour` is `none`. No triangle is a dummy while
vertices are inserted (dummies are made by `insert_edge` only), so `add_triangle` appends. Exceptions and undefined behaviour give `none`.
-/
namespace Mcut.Cdt
open Mcut.Geom

variable {K : Type} [Field K] [LinearOrder K]

/-- `triangle_t`: corner `i`, and the neighbour across the edge from corner `i` to corner `i + 1` — cdt/utils.h:154-176. -/
structure Tri where
  v : Fin 3 → Nat
  n : Fin 3 → Option Nat

/-- `triangles` and `vertTris` — cdt/triangulate.h:139-147. -/
structure St where
  tris : List Tri
  vt : List (List Nat)

/-- `incircle` — source/shewchuk.c: positive if `d` is inside the circle through `a`, `b`, `c` (counter-clockwise). -/
def incircle (a b c d : V2 K) : K :=
  ((a.x - d.x) ^ 2 + (a.y - d.y) ^ 2) * ((b.x - d.x) * (c.y - d.y) - (c.x - d.x) * (b.y - d.y)) +
  ((b.x - d.x) ^ 2 + (b.y - d.y) ^ 2) * ((c.x - d.x) * (a.y - d.y) - (a.x - d.x) * (c.y - d.y)) +
  ((c.x - d.x) ^ 2 + (c.y - d.y) ^ 2) * ((a.x - d.x) * (b.y - d.y) - (b.x - d.x) * (a.y - d.y))

/-- `point_to_line_location_t` — cdt/utils.h:190-198. -/
inductive Side
  | left
  | right
  | on
  deriving DecidableEq

/-- `locate_point_wrt_line` — cdt/utils.h:258-278 (tolerance 0). -/
def sideOf (p a b : V2 K) : Side :=
  if orient2d p a b < 0 then .right else if 0 < orient2d p a b then .left else .on

/-- `point_to_triangle_location_t` — cdt/utils.h:178-188. -/
inductive Loc
  | inside
  | outside
  | edge (i : Fin 3)
  deriving DecidableEq

/-- `locate_point_wrt_triangle` — cdt/utils.h:280-305. -/
def locate (p a b c : V2 K) : Loc :=
  if sideOf p a b = .right then .outside
  else if sideOf p b c = .right then .outside
  else if sideOf p c a = .right then .outside
  else if sideOf p c a = .on then .edge 2
  else if sideOf p b c = .on then .edge 1
  else if sideOf p a b = .on then .edge 0
  else .inside

/-- The first index with the property — the loops in cdt/utils.h:333-384. -/
def first (q : Fin 3 → Bool) : Option (Fin 3) := if q 0 then some 0 else if q 1 then some 1 else if q 2 then some 2 else none

/-- `get_neighbour_index` — cdt/utils.h:366-374. -/
def nbrIndex (t : Tri) (u : Nat) : Option (Fin 3) := first (fun i => t.n i == some u)

/-- `get_opposite_vertex_index`, with `opposite_vertex_from_neighbour` — cdt/utils.h:320-330, 356-364. -/
def oppVertex (t : Tri) (u : Nat) : Option (Fin 3) := (nbrIndex t u).map (· + 2)

/-- `get_opposite_triangle_index`, with `get_opposite_neighbour_from_vertex` and `opposite_triangle_index` — cdt/utils.h:307-318, 332-340, 385-390. -/
def oppTriangle (t : Tri) (v : Nat) : Option (Option Nat) := (first (fun i => t.v i == v)).map (fun i => t.n (i + 1))

/-- `change_neighbour` — cdt/triangulate.h:1937-1950. -/
def changeNbr (ts : List Tri) (t : Option Nat) (old new : Nat) : Option (List Tri) :=
  match t with
  | none => some ts
  | some k => (ts[k]?).bind (fun x => (nbrIndex x old).map (fun i => ts.set k ⟨x.v, Function.update x.n i (some new)⟩))

/-- `add_adjacent_triangle` — cdt/triangulate.h:1952-1958. -/
def addAdj (vt : List (List Nat)) (v t : Nat) : Option (List (List Nat)) := (vt[v]?).map (fun l => vt.set v (l ++ [t]))

/-- `remove_adjacent_triangle`: undefined when there is none — cdt/triangulate.h:1994-2001. -/
def removeAdj (vt : List (List Nat)) (v t : Nat) : Option (List (List Nat)) := (vt[v]?).bind (fun l => if t ∈ l then some (vt.set v (l.erase t)) else none)

/-- `insert_point_in_triangle`; the stack of new triangles has its top first — cdt/triangulate.h:513-548. -/
def insertIn (s : St) (v k : Nat) : Option (St × List Nat) :=
  (s.tris[k]?).bind (fun t =>
    let k1 := s.tris.length
    let k2 := s.tris.length + 1
    let ts := ((s.tris ++ [Tri.mk ![t.v 1, t.v 2, v] ![t.n 1, some k2, some k], Tri.mk ![t.v 2, t.v 0, v] ![t.n 2, some k, some k1]]).set k ⟨![t.v 0, t.v 1, v], ![t.n 0, some k1, some k2]⟩)
    (addAdj s.vt v k).bind fun a => (addAdj a v k1).bind fun a => (addAdj a v k2).bind fun a =>
    (addAdj a (t.v 0) k2).bind fun a => (addAdj a (t.v 1) k1).bind fun a => (removeAdj a (t.v 2) k).bind fun a => (addAdj a (t.v 2) k1).bind fun a => (addAdj a (t.v 2) k2).bind fun a =>
    (changeNbr ts (t.n 1) k k1).bind fun ts => (changeNbr ts (t.n 2) k k2).map fun ts =>
    (⟨ts, a⟩, [k2, k1, k]))

/-- `insert_point_on_edge` — cdt/triangulate.h:343-385. -/
def insertOn (s : St) (v k k' : Nat) : Option (St × List Nat) :=
  (s.tris[k]?).bind fun t => (s.tris[k']?).bind fun t' =>
  (oppVertex t k').bind fun i => (oppVertex t' k).bind fun j =>
    let a1 := s.tris.length
    let a2 := s.tris.length + 1
    let v1 := t.v i
    let v2 := t.v (i + 1)
    let n1 := t.n i
    let n4 := t.n (i + 2)
    let v3 := t'.v j
    let v4 := t'.v (j + 1)
    let n3 := t'.n j
    let n2 := t'.n (j + 2)
    let ts := ((s.tris ++ [Tri.mk ![v1, v, v4] ![some k, some k', n4], Tri.mk ![v3, v, v2] ![some k', some k, n2]]).set k ⟨![v1, v2, v], ![n1, some a2, some a1]⟩).set k' ⟨![v3, v4, v], ![n3, some a1, some a2]⟩
    (addAdj s.vt v k).bind fun a => (addAdj a v a2).bind fun a => (addAdj a v k').bind fun a => (addAdj a v a1).bind fun a =>
    (changeNbr ts n4 k a1).bind fun ts => (changeNbr ts n2 k' a2).bind fun ts =>
    (addAdj a v1 a1).bind fun a => (addAdj a v3 a2).bind fun a => (removeAdj a v2 k').bind fun a => (addAdj a v2 a2).bind fun a => (removeAdj a v4 k).bind fun a => (addAdj a v4 a1).map fun a =>
    (⟨ts, a⟩, [a1, k', a2, k])

/-- `do_edgeflip` — cdt/triangulate.h:1871-1935. -/
def flip (s : St) (k k' : Nat) : Option St :=
  (s.tris[k]?).bind fun t => (s.tris[k']?).bind fun t' =>
  (oppVertex t k').bind fun i => (oppVertex t' k).bind fun j =>
    let v1 := t.v i
    let v2 := t.v (i + 1)
    let n1 := t.n i
    let n3 := t.n (i + 2)
    let v3 := t'.v j
    let v4 := t'.v (j + 1)
    let n4 := t'.n j
    let n2 := t'.n (j + 2)
    let ts := (s.tris.set k ⟨![v4, v1, v3], ![n3, some k', n4]⟩).set k' ⟨![v2, v3, v1], ![n2, some k, n1]⟩
    (changeNbr ts n1 k k').bind fun ts => (changeNbr ts n4 k' k).bind fun ts =>
    (addAdj s.vt v1 k').bind fun a => (addAdj a v3 k).bind fun a => (removeAdj a v2 k).bind fun a => (removeAdj a v4 k').map fun a =>
    ⟨ts, a⟩

/-- `check_is_edgeflip_needed`, on vertices — cdt/triangulate.h:1734-1801. -/
def flipTest (pos : Nat → V2 K) (w v1 v2 v3 : Nat) : Bool :=
  if w < 3 then
    if v1 < 3 then sideOf (pos v1) (pos v2) (pos v3) == sideOf (pos w) (pos v2) (pos v3)
    else if v3 < 3 then sideOf (pos v3) (pos v1) (pos v2) == sideOf (pos w) (pos v1) (pos v2)
    else false
  else if v2 < 3 then
    if v1 < 3 then sideOf (pos v1) (pos w) (pos v3) == sideOf (pos v2) (pos w) (pos v3)
    else if v3 < 3 then sideOf (pos v3) (pos v1) (pos w) == sideOf (pos v2) (pos v1) (pos w)
    else false
  else if v1 < 3 then sideOf (pos v1) (pos v2) (pos v3) == sideOf (pos w) (pos v2) (pos v3)
  else if v3 < 3 then sideOf (pos v3) (pos v1) (pos v2) == sideOf (pos w) (pos v1) (pos v2)
  else decide (0 < incircle (pos v1) (pos v2) (pos v3) (pos w))

/-- `check_is_edgeflip_needed`, on triangles; no edge is fixed yet — cdt/triangulate.h:1803-1834. -/
def flipNeeded (pos : Nat → V2 K) (s : St) (k k' w : Nat) : Option Bool :=
  (s.tris[k']?).bind fun t' => (oppVertex t' k).map fun j => flipTest pos w (t'.v (j + 2)) (t'.v j) (t'.v (j + 1))

/-- `enforce_delaunay_property_using_edge_flips`; the first argument bounds the number of rounds — cdt/triangulate.h:1709-1732. -/
def enforce (pos : Nat → V2 K) : Nat → St → Nat → List Nat → Option St
  | _, s, _, [] => some s
  | 0, _, _, _ :: _ => none
  | fuel + 1, s, w, k :: rest =>
    (s.tris[k]?).bind fun t => (oppTriangle t w).bind fun o =>
      match o with
      | none => enforce pos fuel s w rest
      | some k' => (flipNeeded pos s k k' w).bind fun b => if b then (flip s k k').bind fun s' => enforce pos fuel s' w (k' :: k :: rest) else enforce pos fuel s w rest

/-- `insert_vertex`. `walk` is the triangle that `walk_triangles` arrives in (it depends on random numbers and on the locator): if it does not contain the point there is an exception —
cdt/triangulate.h:550-570, 1693-1707. -/
def insertVertex (pos : Nat → V2 K) (walk : Nat) (s : St) (w : Nat) : Option St :=
  (s.tris[walk]?).bind fun t =>
    (match locate (pos w) (pos (t.v 0)) (pos (t.v 1)) (pos (t.v 2)) with
      | .outside => none
      | .inside => insertIn s w walk
      | .edge i =>
        match t.n i with
        | none => insertIn s w walk
        | some k' => insertOn s w walk k').bind fun r => enforce pos (2 * r.1.tris.length + 4) r.1 w r.2

/-- `box2d_t::expand_with_point` — cdt/utils.h:62-68. -/
def expand (b : V2 K × V2 K) (p : V2 K) : V2 K × V2 K := (⟨min p.x b.1.x, min p.y b.1.y⟩, ⟨max p.x b.2.x, max p.y b.2.y⟩)

/-- `expand_with_points`; `big` is the largest number — cdt/utils.h:76-90. -/
def boxOf (big : K) (pts : List (V2 K)) : V2 K × V2 K := pts.foldl expand (⟨big, big⟩, ⟨-big, -big⟩)

/-- The corners that `add_super_triangle` chooses; `sq` is the square root — cdt/triangulate.h:1605-1618. -/
def superCorner (sq : K → K) (b : V2 K × V2 K) (i : Nat) : V2 K :=
  let c : V2 K := ⟨(b.1.x + b.2.x) / 2, (b.1.y + b.2.y) / 2⟩
  let w := b.2.x - b.1.x
  let h := b.2.y - b.1.y
  let r := sq (w * w + h * h) / 2 * (11 / 10)
  let R := 2 * r
  let shiftX := R * sq 3 / 2
  if i = 0 then ⟨c.x - shiftX, c.y - r⟩ else if i = 1 then ⟨c.x + shiftX, c.y - r⟩ else ⟨c.x, c.y + R⟩

/-- `vertices`: the corners of the super-triangle, then the given points — cdt/triangulate.h:932-943, 1619-1621. -/
def places (sq : K → K) (big : K) (pts : List (V2 K)) (v : Nat) : V2 K := if v < 3 then superCorner sq (boxOf big pts) v else (pts[v - 3]?).getD ⟨0, 0⟩

/-- The super-triangle, and one entry in `vertTris` for each vertex — cdt/triangulate.h:932-943, 1599-1635. -/
def start (n : Nat) : St := ⟨[⟨![0, 1, 2], fun _ => none⟩], [[0], [0], [0]] ++ List.replicate n []⟩

/-- `insert_vertices`, the first `m` of `n` vertices: they have the numbers from 3 on and are inserted in the given order (`AS_GIVEN`, frontend.cpp:1548); `walk` also chooses by the state — cdt/triangulate.h:920-968. -/
def insertFirst (pos : Nat → V2 K) (walk : St → Nat → Nat) (n m : Nat) : Option St :=
  (List.range m).foldlM (fun s i => insertVertex pos (walk s (3 + i)) s (3 + i)) (start n)

/-- `insert_vertices` — cdt/triangulate.h:920-968. -/
def insertVertices (pos : Nat → V2 K) (walk : St → Nat → Nat) (n : Nat) : Option St := insertFirst pos walk n n

end Mcut.Cdt
