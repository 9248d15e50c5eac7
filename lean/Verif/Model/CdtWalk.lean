import Verif.Model.CdtErase
import Verif.Model.Hmesh
import Mathlib.Data.List.Dedup

/-!
# The triangles of a face are put into the output

Models the second half of `triangulate_face`, frontend.cpp:1098-1229 (the winding order tracker) and 1566-1806 (the walk over the triangles). Vertices of the face are numbered from 0 in the order of `get_vertices_around_face`.
The duplicate vertices of 1240-1548 are not modelled, and neither are the messages. In the code each triangle is inserted as soon as it is walked; the walk does not depend on this, so the model first walks and then inserts.
-/
namespace Mcut.Cdt
open Mcut.Hmesh

/-- The walk; the stack has its top first, and the result is the order in which triangles are taken from the stack. A triangle is marked when it is taken from the stack, not when it is put there. The first argument bounds the number of rounds — frontend.cpp:1690-1700, 1766-1790. -/
def walk (fixed : List (Nat × Nat)) (ts : List Tri) : Nat → List Nat → List Nat → Option (List Nat)
  | _, [], done => some done
  | 0, _ :: _, _ => none
  | fuel + 1, k :: rest, done => (ts[k]?).bind fun t =>
    walk fixed ts fuel (pushSide fixed t (done ++ [k]) (pushSide fixed t (done ++ [k]) (pushSide fixed t (done ++ [k]) rest 0) 1) 2) (done ++ [k])

/-- `face_to_cdt_vmap` of a face with `n` vertices — frontend.cpp:1049-1051, 1081-1090. -/
def faceVertex (n : Nat) (flipped : Bool) (v : Nat) : Nat := if flipped then n - 1 - v else v

/-- The body of the loop of the walk, without the walk itself: the triangle is turned around if the tracker does not accept it, and left out if the tracker does not accept it then either. `w` has the numbers of the vertices in the tracker (`cdt_to_wot_vmap`). The output has a list for each triangle here, not three entries of one list — frontend.cpp:1702-1764. -/
def insertTri {P : Type} (w g : Nat → Nat) (t : Tri) (s : Mesh P × List (List Nat)) : Mesh P × List (List Nat) :=
  let l := [g (t.v 0), g (t.v 1), g (t.v 2)]
  let l' := if s.1.isInsertable (l.map w) then l else [g (t.v 2), g (t.v 1), g (t.v 0)]
  let r := s.1.addFace (l'.map w)
  if r.2 = none then (r.1, s.2) else (r.1, s.2 ++ [l'])

/-- All triangles of the walk. -/
def insertTris {P : Type} (w g : Nat → Nat) (ts : List Tri) (order : List Nat) (m : Mesh P) : Mesh P × List (List Nat) :=
  (order.filterMap (ts[·]?)).foldl (fun s t => insertTri w g t s) (m, [])

/-- The triangles at vertex `a` of the face (`vertex_to_triangle_map`) — frontend.cpp:1582-1595. -/
def trisAt (g : Nat → Nat) (ts : List Tri) (a : Nat) : List Nat :=
  (List.range ts.length).flatMap (fun k => match ts[k]? with
    | none => []
    | some t => (if g (t.v 0) = a then [k] else []) ++ (if g (t.v 1) = a then [k] else []) ++ (if g (t.v 2) = a then [k] else []))

/-- The first triangle of the walk — frontend.cpp:1656-1686. -/
def seedTri (g : Nat → Nat) (ts : List Tri) (e : Nat × Nat) : Option Nat := (trisAt g ts e.1).find? (fun k => (trisAt g ts e.2).contains k)

/-- The winding order tracker: `order` has the vertices of the connected component in the order in which they were added, so that the number of a vertex in the tracker is its position there (`cc_to_wot_vmap`). -/
structure Tracker (P : Type) where
  mesh : Mesh P
  order : List Nat
  /-- `wot_traversed_neighbours` -/
  seen : List Nat
  /-- `cc_seed_halfedge` -/
  seed : Option Nat

variable {P : Type}

/-- A vertex that is not there is added — frontend.cpp:1160-1172, 1213-1224. -/
def Tracker.vertex (cc : Mesh P) (w : Tracker P) (v : Nat) : Tracker P :=
  if v ∈ w.order then w else { w with mesh := (w.mesh.addVertex (cc.pos v)).1, order := w.order ++ [v] }

/-- A neighbour is added; `none`: the assertion fails — frontend.cpp:1152-1184. -/
def Tracker.neighbour (cc : Mesh P) (w : Tracker P) (j : Nat) : Option (Tracker P) :=
  let w' := (cc.verticesAroundFace j).foldl (Tracker.vertex cc) w
  let r := w'.mesh.addFace ((cc.verticesAroundFace j).map (w'.order.idxOf ·))
  if r.2 = none then none else some { w' with mesh := r.1, seen := w'.seen ++ [j] }

/-- One halfedge of the face — frontend.cpp:1129-1188. -/
def Tracker.halfedge (cc : Mesh P) (w : Tracker P) (h : Nat) : Option (Tracker P) :=
  match cc.face (opposite h) with
  | none => some w
  | some j => if j ∈ w.seen then some w else Tracker.neighbour cc { w with seed := if w.seed.isNone then some h else w.seed } j

/-- The tracker for face `i`, with all vertices of the face — frontend.cpp:1098-1229. -/
def Tracker.make (dflt : P) (cc : Mesh P) (i : Nat) : Option (Tracker P) :=
  ((cc.fh i).foldlM (Tracker.halfedge cc) ⟨Mesh.empty dflt, [], [], none⟩).map fun w => (cc.verticesAroundFace i).foldl (Tracker.vertex cc) w

/-- The fixed edge at which the walk starts: that of the seed halfedge, or some fixed edge `pick`; `none`: the assertion fails — frontend.cpp:1597-1654. -/
def seedEdge (cc : Mesh P) (i : Nat) (seed : Option Nat) (fixed : List (Nat × Nat)) (pick : Nat × Nat) : Option (Nat × Nat) :=
  match seed with
  | none => if pick ∈ fixed then some pick else none
  | some h =>
    let a := (cc.verticesAroundFace i).idxOf (cc.target (opposite h))
    let b := (cc.verticesAroundFace i).idxOf (cc.target h)
    fixed.find? (fun e => (e.1 == a && e.2 == b) || (e.2 == a && e.1 == b))

/-- From the triangles and the fixed edges of the triangulator to the output; `none`: an assertion fails — frontend.cpp:1098-1229, 1566-1793. -/
def emit (dflt : P) (cc : Mesh P) (i : Nat) (flipped : Bool) (pick : Nat × Nat) (d : Done) : Option (List (List Nat)) :=
  let fv := cc.verticesAroundFace i
  let g := faceVertex fv.length flipped
  (Tracker.make dflt cc i).bind fun w =>
  (seedEdge cc i w.seed d.fixed pick).bind fun e =>
  (seedTri g d.tris e).bind fun k =>
  (walk d.fixed d.tris d.tris.length [k] []).bind fun order =>
  if order.dedup.length = d.tris.length then some (insertTris (fun v => w.order.idxOf (fv.getD v 0)) g d.tris order w.mesh).2 else none

end Mcut.Cdt
