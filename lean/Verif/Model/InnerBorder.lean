import Verif.Model.Trace

/-!
# The border of the cut mesh inside of the source mesh

Models kernel.cpp:8246-8512: if the cut is a partial one, the vertices of the cut mesh border inside of the source mesh are gathered (`sm_interior_cs_border_vertices`), by walking along the border from the re-entrant points. `polys` is `m0_polygons`, `users` is `m0_h_to_ply`, `base` is
`ps_vtx_cnt`, `smCount` is `traced_sm_polygon_count`. `none` as result stands for an assertion that fails, for an access out of bounds, and for a loop that has not ended after `n` rounds.
-/
namespace Mcut.Inner
open Mcut.Hmesh
open Mcut.Trace (src)
variable {P : Type}

/-- Halfedge `h` of a polygon, the first on the border inside of the source mesh: from a re-entrant point to a point that is no intersection point — kernel.cpp:8307-8340. -/
def begins (m : Mesh P) (base : Nat) (users : Nat → List Nat) (queue : List Nat) (h : Nat) : Bool :=
  !decide (base ≤ m.target h) && (users (opposite h)).isEmpty && queue.contains (src m h)

/-- `next_cs_border_he_poly_find_iter`, `next_cs_border_he_idx`: polygon and index in it — kernel.cpp:8298-8343. -/
def findStart (m : Mesh P) (base smCount : Nat) (polys : List (List Nat)) (users : Nat → List Nat) (queue : List Nat) : Option (Nat × Nat) :=
  ((List.range polys.length).drop smCount).findSome? (fun e => ((polys.getD e []).findIdx? (begins m base users queue)).map (fun i => (e, i)))

/-- The next halfedge on the border, from index `i` of polygon `e` around the source of that halfedge. The loop of the code does two of these steps in one round — kernel.cpp:8416-8505. -/
def turn (polys : List (List Nat)) (users : Nat → List Nat) : Nat → Nat → Nat → Option (Nat × Nat)
  | 0, _, _ => none
  | n + 1, e, i =>
    (polys[e]?).bind fun p => (p[i]?).bind fun h =>
    match users (opposite h) with
    | [] => some (e, i)
    | e' :: _ => (polys[e']?).bind fun q => if opposite h ∈ q then turn polys users n e' ((q.idxOf (opposite h) + 1) % q.length) else none

/-- The walk along the border, from index `i` of polygon `e`: the vertices that are found — kernel.cpp:8361-8506. -/
def walk (m : Mesh P) (base : Nat) (polys : List (List Nat)) (users : Nat → List Nat) (rounds : Nat) : Nat → Nat → Nat → Option (List Nat)
  | 0, _, _ => none
  | n + 1, e, i =>
    (polys[e]?).bind fun p => (p[i]?).bind fun h =>
    if base ≤ m.target h then some [m.target h]
    else (turn polys users rounds e ((i + 1) % p.length)).bind fun x => (walk m base polys users rounds n x.1 x.2).map (fun l => m.target h :: l)

/-- `sm_interior_cs_border_vertices`; the argument is the queue of re-entrant points. At least one is there, else the code reads the front of an empty queue — kernel.cpp:8281-8508. -/
def innerBorder (m : Mesh P) (base smCount : Nat) (polys : List (List Nat)) (users : Nat → List Nat) (rounds : Nat) : List Nat → Option (List Nat)
  | [] => some []
  | r :: queue =>
    match findStart m base smCount polys users (r :: queue) with
    | none => innerBorder m base smCount polys users rounds queue
    | some x => (walk m base polys users rounds rounds x.1 x.2).bind fun l => (innerBorder m base smCount polys users rounds queue).map (fun l' => l ++ l')

end Mcut.Inner
