import Mathlib.Algebra.BigOperators.Group.Finset.Basic
import Verif.Spec.C86

/-! # Specification for C87: the triangles of a face -/
namespace Mcut.Cdt
open Mcut.Geom
variable {K : Type} [Field K] [LinearOrder K]

/-- An edge from `a` to `b` crosses the ray from `q` in the direction of `x`: upwards 1, downwards -1. The lower end of the edge belongs to it, the upper end not. -/
def crossing (q a b : V2 K) : Int :=
  if a.y ≤ q.y ∧ q.y < b.y ∧ 0 < orient2d a b q then 1 else if b.y ≤ q.y ∧ q.y < a.y ∧ orient2d a b q < 0 then -1 else 0

/-- How often the polygon with the corners `P 0`, …, `P (n - 1)` goes around `q`. -/
def turns (P : Nat → V2 K) (n : Nat) (q : V2 K) : Int := ∑ i ∈ Finset.range n, crossing q (P i) (P ((i + 1) % n))

/-- Twice the signed area of the polygon. -/
def shoelace (P : Nat → V2 K) (n : Nat) : K := ∑ i ∈ Finset.range n, ((P i).x * (P ((i + 1) % n)).y - (P ((i + 1) % n)).x * (P i).y)

/-- The fixed edges are the edges of the polygon with the vertices 3, …, `n + 2`, and these are sides of triangles. -/
structure Outline (ts : List Tri) (n : Nat) (fixed : List (Nat × Nat)) : Prop where
  fix : ∀ u v, edge u v ∈ fixed ↔ ∃ i < n, edge u v = edge (i + 3) ((i + 1) % n + 3)
  there : ∀ i < n, ∃ t ∈ ts, ∃ j, edge (t.v j) (t.v (j + 1)) = edge (i + 3) ((i + 1) % n + 3)

/-- The triangles are the polygon with the corners `P 0`, …, `P (n - 1)`, without a gap and without an overlap. -/
structure Tiles (P : Nat → V2 K) (n : Nat) (ts : List Tri) : Prop where
  /-- As many as in each triangulation of a polygon without other vertices. -/
  count : ts.length + 2 = n
  corners : ∀ t ∈ ts, ∀ i, t.v i < n
  ccw : ∀ t ∈ ts, 0 < orient2d (t.at P 0) (t.at P 1) (t.at P 2)
  /-- No point is strictly inside two triangles. -/
  apart : ∀ (q : V2 K) (k k' : Nat) (t t' : Tri), ts[k]? = some t → ts[k']? = some t' → InOpen q (t.at P 0) (t.at P 1) (t.at P 2) → InOpen q (t'.at P 0) (t'.at P 1) (t'.at P 2) → k = k'
  /-- Points inside a triangle are inside the polygon, and a point that is in no triangle is not inside the polygon. The polygon goes around each point inside it once: counter-clockwise around all of them, or clockwise around all of them. -/
  inside : ∃ ε : Int, (ε = 1 ∧ 0 < shoelace P n ∨ ε = -1 ∧ shoelace P n < 0) ∧ (∀ q, turns P n q = 0 ∨ turns P n q = ε) ∧
    (∀ q, ∀ t ∈ ts, InOpen q (t.at P 0) (t.at P 1) (t.at P 2) → turns P n q = ε) ∧
    (∀ q, turns P n q ≠ 0 → ∃ t ∈ ts, InClosed q (t.at P 0) (t.at P 1) (t.at P 2))
  /-- The areas of the triangles add up to the area of the polygon. -/
  area : (ts.map (fun t => orient2d (t.at P 0) (t.at P 1) (t.at P 2))).sum = |shoelace P n|

end Mcut.Cdt
