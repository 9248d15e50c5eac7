import Mathlib.Algebra.Order.Field.Basic

/-!
# Geometry (source/math.cpp)

Numbers are the elements of an ordered field `K`: the code is modelled in exact arithmetic (floating-point rounding is not modelled; the
predicates `orient2d`/`orient3d` of source/shewchuk.c return the exact sign of the determinants below).
-/
namespace Mcut.Geom

/-- `vec2_<double>` — include/mcut/internal/math.h. -/
@[ext] structure V2 (K : Type*) where
  x : K
  y : K
deriving DecidableEq

/-- `vec3_<double>` — include/mcut/internal/math.h. -/
@[ext] structure V3 (K : Type*) where
  x : K
  y : K
  z : K
deriving DecidableEq

variable {K : Type*} [Field K] [LinearOrder K]

/-- `orient2d` — source/shewchuk.c: twice the signed area of the triangle. -/
def orient2d (a b c : V2 K) : K := (a.x - c.x) * (b.y - c.y) - (a.y - c.y) * (b.x - c.x)

/-- `collinear` — math.cpp:788-797. -/
def collinear (a b c : V2 K) : Bool := decide (orient2d a b c = 0)

/-- `Between` — math.cpp:757-767. -/
def between (a b c : V2 K) : Bool :=
  if a.x ≠ b.x then (decide (a.x ≤ c.x) && decide (c.x ≤ b.x)) || (decide (a.x ≥ c.x) && decide (c.x ≥ b.x))
  else (decide (a.y ≤ c.y) && decide (c.y ≤ b.y)) || (decide (a.y ≥ c.y) && decide (c.y ≥ b.y))

/-- Return characters of the segment tests — include/mcut/internal/math.h:595-601. `unset` is `'?'`. -/
inductive SegCode | edge | vertex | proper | none | unset
deriving DecidableEq, Repr

/-- `Parallellnt` — math.cpp:799-826. The point is only written for `'e'`. -/
def parallelInt (a b c d : V2 K) : SegCode × Option (V2 K) :=
  if !collinear a b c then (.none, Option.none)
  else if between a b c then (.edge, some c)
  else if between a b d then (.edge, some d)
  else if between c d a then (.edge, some a)
  else if between c d b then (.edge, some b)
  else (.none, Option.none)

/-- `compute_segment_intersection` — math.cpp:828-876. Result: code, point `p` if written, parameters `s`, `t` if written. -/
def segmentIntersection (a b c d : V2 K) : SegCode × Option (V2 K) × Option (K × K) :=
  let denom := a.x * (d.y - c.y) + b.x * (c.y - d.y) + d.x * (b.y - a.y) + c.x * (a.y - b.y)
  if denom = 0 then ((parallelInt a b c d).1, (parallelInt a b c d).2, Option.none)
  else
    let num1 := a.x * (d.y - c.y) + c.x * (a.y - d.y) + d.x * (c.y - a.y)
    let code : SegCode := if num1 = 0 ∨ num1 = denom then .vertex else .unset
    let s := num1 / denom
    let num2 := -(a.x * (c.y - b.y) + b.x * (a.y - c.y) + c.x * (b.y - a.y))
    let code : SegCode := if num2 = 0 ∨ num2 = denom then .vertex else code
    let t := num2 / denom
    let code : SegCode :=
      if 0 < s ∧ s < 1 ∧ 0 < t ∧ t < 1 then .proper
      else if 0 > s ∨ s > 1 ∨ 0 > t ∨ t > 1 then .none
      else code
    (code, some ⟨a.x + s * (b.x - a.x), a.y + s * (b.y - a.y)⟩, some (s, t))

/-- `vec3_::operator-` — include/mcut/internal/math.h:222-225. -/
def sub3 (a b : V3 K) : V3 K := ⟨a.x - b.x, a.y - b.y, a.z - b.z⟩

/-- `vec3_::operator+` — include/mcut/internal/math.h:227-230. -/
def add3 (a b : V3 K) : V3 K := ⟨a.x + b.x, a.y + b.y, a.z + b.z⟩

/-- `dot_product` — include/mcut/internal/math.h:437-445. -/
def dot (a b : V3 K) : K := a.x * b.x + a.y * b.y + a.z * b.z

/-- `cross_product` — math.cpp:81-87. -/
def cross (a b : V3 K) : V3 K := ⟨a.y * b.z - a.z * b.y, a.z * b.x - a.x * b.z, a.x * b.y - a.y * b.x⟩

/-- `orient3d` — math.cpp:98-107, source/shewchuk.c (`orient3dfast` is the determinant whose exact sign `orient3d` returns). -/
def orient3d (a b c d : V3 K) : K :=
  (a.x - d.x) * ((b.y - d.y) * (c.z - d.z) - (b.z - d.z) * (c.y - d.y))
    + (b.x - d.x) * ((c.y - d.y) * (a.z - d.z) - (c.z - d.z) * (a.y - d.y))
    + (c.x - d.x) * ((a.y - d.y) * (b.z - d.z) - (a.z - d.z) * (b.y - d.y))

/-- The terms of the normal, for the edges `i = 0 .. n-2` — math.cpp:124-127 (`v0` is `polygon_vertices[0]`; the modulus in the code is never
effective because the loop stops before the last vertex). -/
def normalFrom (v0 : V3 K) : List (V3 K) → V3 K
  | a :: b :: rest => add3 (cross (sub3 a v0) (sub3 b v0)) (normalFrom v0 (b :: rest))
  | _ => ⟨0, 0, 0⟩

/-- The normal of a polygon (not normalised) — math.cpp:123-127. The sum is formed in the opposite order, which only matters with rounding. -/
def polygonNormal (vs : List (V3 K)) : V3 K := match vs with
  | [] => ⟨0, 0, 0⟩
  | v0 :: _ => normalFrom v0 vs

/-- `absolute_value` — math.cpp:53-56. -/
def absK (x : K) : K := if x < 0 then -x else x

/-- The index of the largest component of the normal — math.cpp:135-147. -/
def largestComponent (n : V3 K) : Nat :=
  let (l, i) : K × Nat := if absK n.x > 0 then (absK n.x, 0) else (0, 0)
  let (l, i) : K × Nat := if absK n.y > l then (absK n.y, 1) else (l, i)
  if absK n.z > l then 2 else i

/-- `compute_polygon_plane_coefficients` — math.cpp:120-148: normal, distance coefficient, index of the largest component. -/
def planeCoefficients (vs : List (V3 K)) : V3 K × K × Nat :=
  let n := polygonNormal vs
  (n, dot (vs.headD ⟨0, 0, 0⟩) n, largestComponent n)

/-- Return characters of the plane tests — math.cpp:150-157. -/
inductive PlaneCode | inPlane | q | r | none | one
deriving DecidableEq, Repr

/-- The point at parameter `t` of the line from `q` to `r` — math.cpp:181-183, 396-398. -/
def along (q r : V3 K) (t : K) : V3 K := ⟨q.x + t * (r.x - q.x), q.y + t * (r.y - q.y), q.z + t * (r.z - q.z)⟩

/-- `compute_segment_plane_intersection` — math.cpp:158-196. Result: code, point `p` if written. -/
def segmentPlane (normal : V3 K) (d : K) (q r : V3 K) : PlaneCode × Option (V3 K) :=
  let num := d - dot q normal
  let denom := dot (sub3 r q) normal
  if denom = 0 then (if num = 0 then (.inPlane, Option.none) else (.none, Option.none))
  else
    let t := num / denom
    let p := along q r t
    if 0 < t ∧ t < 1 then (.one, some p)
    else if num = 0 then (.q, some p)
    else if num = denom then (.r, some p)
    else (.none, some p)

/-- The innermost loop (over `k`) of `determine_three_noncollinear_vertices` — math.cpp:230-235. `k` is not reset by the enclosing loops, so its
final value is returned. The first argument bounds the number of iterations. -/
def loopK (test : Nat → Nat → Nat → Bool) (n i j : Nat) : Nat → Nat → List (Nat × Nat × Nat) × Nat
  | 0, k => ([], k)
  | f + 1, k =>
    if k < n then ((if test i j k then [(i, j, k)] else []) ++ (loopK test n i j f (k + 1)).1, (loopK test n i j f (k + 1)).2) else ([], k)

/-- The loop over `j` — math.cpp:229-236. `j` is not reset either. -/
def loopJ (test : Nat → Nat → Nat → Bool) (n i : Nat) : Nat → Nat → Nat → List (Nat × Nat × Nat) × Nat × Nat
  | 0, j, k => ([], j, k)
  | f + 1, j, k =>
    if j < n then
      ((loopK test n i j (n - k) k).1 ++ (loopJ test n i f (j + 1) (loopK test n i j (n - k) k).2).1,
        (loopJ test n i f (j + 1) (loopK test n i j (n - k) k).2).2)
    else ([], j, k)

/-- The loop over `i` — math.cpp:228-237. -/
def loopI (test : Nat → Nat → Nat → Bool) (n : Nat) : Nat → Nat → Nat → Nat → List (Nat × Nat × Nat)
  | 0, _, _, _ => []
  | f + 1, i, j, k =>
    if i < n then (loopJ test n i (n - j) j k).1 ++
      loopI test n f (i + 1) (loopJ test n i (n - j) j k).2.1 (loopJ test n i (n - j) j k).2.2
    else []

/-- Access to a vertex of the projected polygon. -/
def at2 (x : List (V2 K)) (i : Nat) : V2 K := x.getD i ⟨0, 0⟩

/-- Access to a vertex of the polygon. -/
def at3 (x : List (V3 K)) (i : Nat) : V3 K := x.getD i ⟨0, 0, 0⟩

/-- `non_colinear_triplets` — math.cpp:222-237, for the projected vertices `x`. -/
def triplets (x : List (V2 K)) : List (Nat × Nat × Nat) :=
  loopI (fun i j k => !collinear (at2 x i) (at2 x j) (at2 x k)) x.length x.length 0 1 2

/-- The result of `determine_three_noncollinear_vertices`: three indices, or undefined behaviour (`front()` of an empty vector, math.cpp:244). -/
inductive Three | ub | found (i j k : Nat)
deriving DecidableEq, Repr

/-- `determine_three_noncollinear_vertices` — math.cpp:198-251, for the projected vertices `x`, as a relation: `std::sort` may leave any triple
of largest absolute area in front. -/
def ThreeNoncollinear (x : List (V2 K)) : Three → Prop
  | .ub => triplets x = []
  | .found i j k => (i, j, k) ∈ triplets x ∧ ∀ t ∈ triplets x,
      absK (orient2d (at2 x t.1) (at2 x t.2.1) (at2 x t.2.2)) ≤ absK (orient2d (at2 x i) (at2 x j) (at2 x k))

/-- The choice of three vertices at the head of the three functions below — math.cpp:260-272, 296-308, 360-372. -/
def ChooseThree (vs : List (V3 K)) (project : V3 K → V2 K) (t : Three) : Prop :=
  if vs.length > 3 then ThreeNoncollinear (vs.map project) t else t = .found 0 1 2

/-- `compute_segment_plane_intersection_type` — math.cpp:274-287, after the choice of the vertices `i j k`. -/
def segmentPlaneType (a b c : V3 K) (q r : V3 K) : PlaneCode :=
  let qRes := orient3d a b c q
  let rRes := orient3d a b c r
  if qRes = 0 ∧ rRes = 0 then .inPlane
  else if qRes = 0 then .q
  else if rRes = 0 then .r
  else if (rRes < 0 ∧ qRes < 0) ∨ (rRes > 0 ∧ qRes > 0) then .none
  else .one

/-- `compute_segment_line_plane_intersection_type` — math.cpp:310-333, after the choice of the vertices. -/
def linePlaneType (a b c : V3 K) (normal : V3 K) (q r : V3 K) : PlaneCode :=
  let qRes := orient3d a b c q
  let rRes := orient3d a b c r
  if qRes = 0 ∧ rRes = 0 then .inPlane
  else if ((rRes < 0 ∧ qRes < 0) ∨ (rRes > 0 ∧ qRes > 0)) ∧ dot (sub3 r q) normal = 0 then .none
  else .one

/-- `compute_line_plane_intersection` — math.cpp:374-401, after the choice of the vertices. Result: code, point if written (`denom = 0` in the
division is reported as `Option.none` with code `'1'`: not a number). -/
def linePlane (a b c : V3 K) (normal : V3 K) (d : K) (q r : V3 K) : PlaneCode × Option (V3 K) :=
  let qRes := orient3d a b c q
  let rRes := orient3d a b c r
  if qRes = 0 ∧ rRes = 0 then (.inPlane, Option.none)
  else
    let num := d - dot q normal
    let denom := dot (sub3 r q) normal
    if ((rRes < 0 ∧ qRes < 0) ∨ (rRes > 0 ∧ qRes > 0)) ∧ denom = 0 then (.none, Option.none)
    else if denom = 0 then (.one, Option.none)
    else (.one, some (along q r (num / denom)))

/-- Component `m` of a vector — `vec3_::operator[]`, include/mcut/internal/math.h:198-208. -/
def comp (v : V3 K) (m : Nat) : K := if m = 0 then v.x else if m = 1 then v.y else v.z

/-- `calculate_projection_matrix` applied to a point — math.cpp:568-651 and `matrix_t::operator*`, include/mcut/internal/math.h:337-365.
`l` is the length of the normal (`normalize` divides by a square root, so the length is a parameter: `l * l = n·n`, `0 < l`);
`m` is the index of its largest component. The matrix is `K * R` with `R = 2 (a+b)(a+b)ᵀ / (a·b) - diag(1,-1,1)`, or `R = diag(1,-1,1)` if `a = b`. -/
def project (n : V3 K) (l : K) (m : Nat) (x : V3 K) : V2 K :=
  let a : V3 K := ⟨n.x / l, n.y / l, n.z / l⟩
  let s : K := if comp n m > 0 then 1 else if comp n m < 0 then -1 else 0
  let b : V3 K := ⟨if m = 0 then s else 0, if m = 1 then s else 0, if m = 2 then s else 0⟩
  let ix : V3 K := ⟨x.x, -x.y, x.z⟩
  let rx : V3 K :=
    if a = b then ix
    else
      let w := add3 a b
      let c := dot a b
      ⟨w.x * dot w x / c * 2 - ix.x, w.y * dot w x / c * 2 - ix.y, w.z * dot w x / c * 2 - ix.z⟩
  if m = 0 then ⟨rx.y, rx.z⟩ else if m = 1 then ⟨rx.x, rx.z⟩ else ⟨rx.x, rx.y⟩

/-- What the plane tests may return for a polygon: `Option.none` is undefined behaviour in the choice of the three vertices — math.cpp:253-402.
`f` is the rest of the function, for the chosen vertices. The early return for `b == false` (math.cpp:269-271) is never reached: an empty list
of triples has undefined behaviour before. -/
def Returns {R : Type*} (vs : List (V3 K)) (n : V3 K) (l : K) (m : Nat) (f : V3 K → V3 K → V3 K → R) (res : Option R) : Prop :=
  ∃ t, ChooseThree vs (project n l m) t ∧
    res = match t with
      | .ub => Option.none
      | .found i j k => some (f (at3 vs i) (at3 vs j) (at3 vs k))

/-- The result characters of the point-in-polygon test — math.cpp:404-410. -/
inductive InCode | inside | outside | edge | vertex
deriving DecidableEq, Repr

/-- The test of one edge from `vl` (index `i - 1`) to `v` (index `i`), both relative to the query point — math.cpp:526-547.
Result: is it counted in `Rcross`, in `Lcross`? -/
def edgeCross (vl v : V2 K) : Bool × Bool :=
  let rstrad : Bool := decide (v.y > 0) != decide (vl.y > 0)
  let lstrad : Bool := decide (v.y < 0) != decide (vl.y < 0)
  let x := (v.x * vl.y - vl.x * v.y) / (vl.y - v.y)
  (rstrad && decide (x > 0), lstrad && decide (x < 0))

/-- The loop over the vertices — math.cpp:515-548: `vl` is the previous vertex, `r`, `l` are the counters; `none` is the early return `'v'`. -/
def crossLoop (r l : Nat) (vl : V2 K) : List (V2 K) → Option (Nat × Nat)
  | [] => some (r, l)
  | v :: rest =>
    if v.x = 0 ∧ v.y = 0 then Option.none
    else crossLoop (if (edgeCross vl v).1 then r + 1 else r) (if (edgeCross vl v).2 then l + 1 else l) v rest

/-- `compute_point_in_polygon_test` (2D) — math.cpp:411-562. -/
def pointInPolygon (q : V2 K) (poly : List (V2 K)) : InCode :=
  let vs := poly.map (fun v => (⟨v.x - q.x, v.y - q.y⟩ : V2 K))
  match crossLoop 0 0 (vs.getLastD ⟨0, 0⟩) vs with
  | Option.none => .vertex
  | some (r, l) => if r % 2 ≠ l % 2 then .edge else if r % 2 = 1 then .inside else .outside

/-- `compute_point_in_polygon_test` (3D) — math.cpp:707-755. -/
def pointInPolygon3 (n : V3 K) (l : K) (m : Nat) (p : V3 K) (poly : List (V3 K)) : InCode :=
  pointInPolygon (project n l m p) (poly.map (project n l m))

end Mcut.Geom
