import Verif.Model.CutEdges
import Verif.Model.Geom

/-!
# Sorting points along a line (source/kernel.cpp:1496-1534)

`linear_projection_sort`, which gives the order in which more than two common points of two faces are joined (3441-3453). `std::sort` is a parameter, of which only its
postcondition is used (`Sorts`). Exact arithmetic; `scale v` stands for one over the length of `v`.
-/
namespace Mcut.CutEdges
open Mcut.Geom
variable {K : Type*} [Field K] [LinearOrder K]

/-- `normalize` — include/mcut/internal/math.h:493-496. -/
def unit (scale : V3 K → K) (v : V3 K) : V3 K := ⟨v.x * scale v, v.y * scale v, v.z * scale v⟩

/-- `point_projections`: each point with its projection — source/kernel.cpp:1511-1520. `o`, `q`: the first two points. -/
def projections (scale : V3 K → K) (pos : Nat → V3 K) (o q : Nat) (l : List Nat) : List (Nat × K) :=
  l.map (fun i => (i, dot (sub3 (pos o) (pos i)) (unit scale (sub3 (pos o) (pos q)))))

/-- `linear_projection_sort` — source/kernel.cpp:1498-1534; `sort` is `std::sort` with the comparison at 1522-1525. Fewer than two points are only asserted away (1509). -/
def projectionSort (scale : V3 K → K) (pos : Nat → V3 K) (sort : List (Nat × K) → List (Nat × K)) : List Nat → List Nat
  | o :: q :: l => (sort (projections scale pos o q (o :: q :: l))).map Prod.fst
  | l => l

/-- The middle of two points — source/kernel.cpp:3489 -/
def middle (a b : V3 K) : V3 K := ⟨(b.x + a.x) * (1 / 2), (b.y + a.y) * (1 / 2), (b.z + a.z) * (1 / 2)⟩

/-- The test of the middle point of two points — source/kernel.cpp:3455-3513 (3486-3489, 3502-3508). `test f p` stands for `compute_point_in_polygon_test` of `p` and face `f` with result 'i'. -/
def insideMiddle (test : Nat → V3 K → Bool) (pos : Nat → V3 K) (f v w : Nat) : Bool := test f (middle (pos v) (pos w))

end Mcut.CutEdges
