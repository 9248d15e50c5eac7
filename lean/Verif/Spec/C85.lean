import Verif.Model.Cdt

/-! # Specification for C85: a triangulation of the super-triangle -/
namespace Mcut.Cdt
open Mcut.Geom
variable {K : Type} [Field K] [LinearOrder K]

/-- The corners 0, 1, 2 of the super-triangle are counter-clockwise; the other vertices, up to `M`, are strictly inside and no two of them are at the same place. -/
structure Placed (pos : Nat → V2 K) (M : Nat) : Prop where
  ccw : 0 < orient2d (pos 0) (pos 1) (pos 2)
  inside : ∀ v, 3 ≤ v → v < M → 0 < orient2d (pos 0) (pos 1) (pos v) ∧ 0 < orient2d (pos 1) (pos 2) (pos v) ∧ 0 < orient2d (pos 2) (pos 0) (pos v)
  distinct : ∀ v v', 3 ≤ v → 3 ≤ v' → v < M → v' < M → pos v = pos v' → v = v'

/-- `q` is in the triangle with the corners `a`, `b`, `c` (counter-clockwise), perhaps on its boundary. -/
def InClosed (q a b c : V2 K) : Prop := 0 ≤ orient2d a b q ∧ 0 ≤ orient2d b c q ∧ 0 ≤ orient2d c a q

/-- `q` is strictly inside the triangle. -/
def InOpen (q a b c : V2 K) : Prop := 0 < orient2d a b q ∧ 0 < orient2d b c q ∧ 0 < orient2d c a q

/-- The corners of a triangle. -/
def Tri.at (pos : Nat → V2 K) (t : Tri) (i : Fin 3) : V2 K := pos (t.v i)

/-- A triangulation of the super-triangle, with the `N` vertices 0, …, `N - 1`. -/
structure Triangulation (pos : Nat → V2 K) (N : Nat) (s : St) : Prop where
  /-- The triangles are counter-clockwise (and not degenerate), -/
  ccw : ∀ t ∈ s.tris, 0 < orient2d (t.at pos 0) (t.at pos 1) (t.at pos 2)
  /-- their corners are the vertices, and each vertex is a corner. -/
  vertices : ∀ v, v < N ↔ ∃ t ∈ s.tris, ∃ i, t.v i = v
  /-- There are `2 (N - 3) + 1` triangles. -/
  count : s.tris.length = 2 * (N - 3) + 1
  /-- No point is strictly inside two triangles, -/
  apart : ∀ (q : V2 K) (k k' : Nat) (t t' : Tri), s.tris[k]? = some t → s.tris[k']? = some t' → InOpen q (t.at pos 0) (t.at pos 1) (t.at pos 2) → InOpen q (t'.at pos 0) (t'.at pos 1) (t'.at pos 2) → k = k'
  /-- each point of the interior of the super-triangle is in a triangle, -/
  cover : ∀ q : V2 K, InOpen q (pos 0) (pos 1) (pos 2) → ∃ t ∈ s.tris, InClosed q (t.at pos 0) (t.at pos 1) (t.at pos 2)
  /-- and no point strictly inside a triangle is outside the super-triangle. -/
  within : ∀ (q : V2 K), ∀ t ∈ s.tris, InOpen q (t.at pos 0) (t.at pos 1) (t.at pos 2) → InClosed q (pos 0) (pos 1) (pos 2)
  /-- Across the edge `i` of triangle `k`, from the corner `i` to the corner `i + 1`: the neighbour has the same edge, in the other direction, with `k` across it. -/
  neighbours : ∀ (k k' : Nat) (t : Tri) (i : Fin 3), s.tris[k]? = some t → t.n i = some k' →
    ∃ (t' : Tri) (j : Fin 3), s.tris[k']? = some t' ∧ t'.n j = some k ∧ t'.v j = t.v (i + 1) ∧ t'.v (j + 1) = t.v i
  /-- Only the three edges of the super-triangle have no neighbour. -/
  border : ∀ (k : Nat) (t : Tri) (i : Fin 3), s.tris[k]? = some t → (t.n i = none ↔ (t.v i, t.v (i + 1)) ∈ [(0, 1), (1, 2), (2, 0)])
  /-- Each vertex has a list of triangles. -/
  listed : N ≤ s.vt.length
  /-- The list of a vertex has exactly the triangles with this corner, each once. -/
  lists : ∀ (v : Nat) (l : List Nat), s.vt[v]? = some l → l.Nodup ∧ ∀ k, k ∈ l ↔ ∃ (t : Tri) (i : Fin 3), s.tris[k]? = some t ∧ t.v i = v

/-- The walk arrives in a triangle that contains the vertex. -/
def Arrives (pos : Nat → V2 K) (s : St) (v k : Nat) : Prop := ∃ t : Tri, s.tris[k]? = some t ∧ InClosed (pos v) (t.at pos 0) (t.at pos 1) (t.at pos 2)

end Mcut.Cdt
