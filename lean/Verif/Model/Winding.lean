import Verif.Model.Dispatch
import Verif.Model.Box
import Verif.Model.Geom
import Mathlib.Analysis.SpecialFunctions.Complex.Arg

/-!
# Winding numbers and the enclosure test (source/preproc.cpp:1325-1727)

Numbers are real numbers: the code is modelled in exact arithmetic (rounding of doubles is not modelled). `std::atan2(y, x)` is the principal argument of `x + iy`.
The triangulation of faces with more than four vertices (`triangulate_face`, frontend.cpp) is a parameter `cdt`: the list of local vertex indices that it returns for a face.
-/
namespace Mcut.Winding
open Mcut.Hmesh Mcut.Dispatch

/-- `vec3` — include/mcut/internal/math.h. -/
abbrev Vec := Geom.V3 ℝ

/-- `vec3::operator-` — include/mcut/internal/math.h:222-225. -/
def sub (a b : Vec) : Vec := ⟨a.x - b.x, a.y - b.y, a.z - b.z⟩

/-- `vec3::operator/` (by a number) — include/mcut/internal/math.h:232-235. -/
noncomputable def vdiv (a : Vec) (t : ℝ) : Vec := ⟨a.x / t, a.y / t, a.z / t⟩

/-- `dot_product` — include/mcut/internal/math.h:437-447. -/
def dot (a b : Vec) : ℝ := a.x * b.x + a.y * b.y + a.z * b.z

/-- `cross_product` — source/math.cpp:81-88. -/
def cross (a b : Vec) : Vec := ⟨a.y * b.z - a.z * b.y, a.z * b.x - a.x * b.z, a.x * b.y - a.y * b.x⟩

/-- `squared_length` — include/mcut/internal/math.h:480-484. -/
def squaredLength (a : Vec) : ℝ := dot a a

/-- `length` — include/mcut/internal/math.h:486-490. -/
noncomputable def length (a : Vec) : ℝ := Real.sqrt (squaredLength a)

/-- `std::atan2`. -/
noncomputable def atan2 (y x : ℝ) : ℝ := Complex.arg ⟨x, y⟩

open Classical in
/-- `calculate_signed_solid_angle` for a triangle — preproc.cpp:1327-1368. -/
noncomputable def solidTri (a b c query : Vec) : ℝ :=
  let qa := sub a query
  let qb := sub b query
  let qc := sub c query
  let alength := length qa
  let blength := length qb
  let clength := length qc
  if alength = 0 ∨ blength = 0 ∨ clength = 0 then 0
  else
    let na := vdiv qa alength
    let nb := vdiv qb blength
    let nc := vdiv qc clength
    let numerator := dot na (cross (sub nb na) (sub nc na))
    if numerator = 0 then 0
    else
      let denominator := 1 + dot na nb + dot na nc + dot nb nc
      atan2 numerator denominator / (2 * Real.pi)

open Classical in
/-- `calculate_signed_solid_angle` for a quad — preproc.cpp:1370-1478. -/
noncomputable def solidQuad (a b c d query : Vec) : ℝ :=
  let q0 := sub a query
  let q1 := sub b query
  let q2 := sub c query
  let q3 := sub d query
  if length q0 = 0 ∨ length q1 = 0 ∨ length q2 = 0 ∨ length q3 = 0 then 0
  else
    let v0 := vdiv q0 (length q0)
    let v1 := vdiv q1 (length q1)
    let v2 := vdiv q2 (length q2)
    let v3 := vdiv q3 (length q3)
    let diag02 := sub v2 v0
    let diag13 := sub v3 v1
    let v01 := sub v1 v0
    let v23 := sub v3 v2
    let bary0 := dot v3 (cross v23 diag13)
    let bary1 := -dot v2 (cross v23 diag02)
    let bary2 := -dot v1 (cross v01 diag13)
    let bary3 := dot v0 (cross v01 diag02)
    let dot01 := dot v0 v1
    let dot12 := dot v1 v2
    let dot23 := dot v2 v3
    let dot30 := dot v3 v0
    if bary0 * bary2 < bary1 * bary3 then
      let dot02 := dot v0 v2
      let omega := if bary3 ≠ 0 then atan2 bary3 (1 + dot01 + dot12 + dot02) else 0
      let omega := if bary1 ≠ 0 then omega + atan2 bary1 (1 + dot02 + dot23 + dot30) else omega
      omega / (2 * Real.pi)
    else
      let dot13 := dot v1 v3
      let omega := if -bary2 ≠ 0 then atan2 (-bary2) (1 + dot01 + dot13 + dot30) else 0
      let omega := if -bary0 ≠ 0 then omega + atan2 (-bary0) (1 + dot12 + dot23 + dot13) else omega
      omega / (2 * Real.pi)

/-- The mesh's vertices to which the local indices of the triangulation of a face refer — preproc.cpp:1493-1505. -/
def cdtGlobal (vs : List Nat) (cdtLocal : List Nat) : List Nat := cdtLocal.map (fun i => vs.getD i 0)

/-- The triangles of a list of indices: numbers `3i`, `3i + 1`, `3i + 2` — preproc.cpp:1508-1512. -/
def triples (l : List Nat) : List (Nat × Nat × Nat) := (List.range (l.length / 3)).map (fun i => (l.getD (i * 3 + 0) 0, l.getD (i * 3 + 1) 0, l.getD (i * 3 + 2) 0))

/-- `computeWindingNumberOnFace` — preproc.cpp:1479-1540. -/
noncomputable def onFace (cdt : Nat → List Nat) (m : Mesh Vec) (query : Vec) (f : Nat) : ℝ :=
  let vs := m.verticesAroundFace f
  if vs.length > 4 then
    (triples (cdtGlobal vs (cdt f))).foldl (fun w t => w + solidTri (m.pos t.1) (m.pos t.2.1) (m.pos t.2.2) query) 0
  else if vs.length = 4 then
    0 + solidQuad (m.pos (vs.getD 0 0)) (m.pos (vs.getD 1 0)) (m.pos (vs.getD 2 0)) (m.pos (vs.getD 3 0)) query
  else 0 + solidTri (m.pos (vs.getD 0 0)) (m.pos (vs.getD 1 0)) (m.pos (vs.getD 2 0)) query

/-- The faces in the order in which they are visited — `faces_begin()` … `faces_end()`, preproc.cpp:1567-1568, 1578. -/
def faces (m : Mesh Vec) : List Nat := enumerateFrom m.fRem m.nF 0

/-- The contribution of a range of faces — preproc.cpp:1553-1560 and 1578-1583. -/
noncomputable def blockSum (cdt : Nat → List Nat) (m : Mesh Vec) (query : Vec) (fs : List Nat) : ℝ := fs.foldl (fun w f => w + onFace cdt m query f) 0

/-- `getWindingNumber` without helper threads — preproc.cpp:1578-1583. -/
noncomputable def windingNumber (cdt : Nat → List Nat) (m : Mesh Vec) (query : Vec) : ℝ := blockSum cdt m query (faces m)

/-- A thread in `mc_atomic_fetch_add` — include/mcut/internal/tpool.h:1024-1030: before the load, in the loop with `expected` loaded, or done. -/
inductive Adder | start (arg : ℝ) | loaded (arg expected : ℝ) | done

/-- `gWindingNumber` and the threads that add to it. -/
structure Adding where
  total : ℝ
  threads : List Adder

/-- The steps of `mc_atomic_fetch_add`: load; a successful exchange (the total is as expected); a failed exchange (also spuriously: weak), which loads the total. -/
inductive Adding.Step : Adding → Adding → Prop
  | load {t : ℝ} {l r : List Adder} {x : ℝ} : Step ⟨t, l ++ .start x :: r⟩ ⟨t, l ++ .loaded x t :: r⟩
  | exchange {t : ℝ} {l r : List Adder} {x : ℝ} : Step ⟨t, l ++ .loaded x t :: r⟩ ⟨t + x, l ++ .done :: r⟩
  | fail {t : ℝ} {l r : List Adder} {x e : ℝ} : Step ⟨t, l ++ .loaded x e :: r⟩ ⟨t, l ++ .loaded x t :: r⟩

/-- `getWindingNumber` with helper threads — preproc.cpp:1546-1576: `w` is a possible result if some division of the faces into consecutive blocks and some interleaving of the threads'
additions to the total ends with it. The threads' sums are started together: a thread that reaches its addition late is one that is not scheduled earlier. -/
def IsWindingNumber (cdt : Nat → List Nat) (m : Mesh Vec) (query : Vec) (w : ℝ) : Prop :=
  ∃ blocks : List (List Nat), blocks.flatten = faces m ∧
    Relation.ReflTransGen Adding.Step ⟨0, blocks.map (fun fs => .start (blockSum cdt m query fs))⟩ ⟨w, blocks.map (fun _ => .done)⟩

/-- `windingNumberEps` — preproc.cpp:1637. -/
noncomputable def eps : ℝ := 1 / 10000000

open Classical in
/-- `absolute_value(1.0 - windingNumber) < windingNumberEps` — preproc.cpp:1665, 1678, 1696, 1714. -/
noncomputable def isInside (w : ℝ) : Bool := decide (|1 - w| < eps)

/-- The squared length of the diagonal of a box — preproc.cpp:1649-1650. -/
def diagonal (b : Box.BBox ℝ) : ℝ := squaredLength (sub ⟨b.hi.x, b.hi.y, b.hi.z⟩ ⟨b.lo.x, b.lo.y, b.lo.z⟩)

/-- A mesh as the enclosure test sees it: the halfedge mesh, the triangulations of its faces with more than four vertices, and the box at the root of its hierarchy. -/
structure Body where
  mesh : Mesh Vec
  cdt : Nat → List Nat
  box : Box.BBox ℝ

/-- The winding number of a point with respect to a mesh. -/
noncomputable def Body.winding (b : Body) (q : Vec) : ℝ := windingNumber b.cdt b.mesh q

open Classical in
/-- The geometric facts used by `check_and_store_input_mesh_intersection_type` — preproc.cpp:1639, 1649-1654, 1661-1665, 1674-1678, 1692-1696, 1710-1714. The vertex that is tested against the smaller mesh is
the first of the *source mesh* (line 1674), whichever mesh is the larger one. -/
noncomputable def enclosure (sw cw : Bool) (src cut : Body) : Enclosure :=
  let larger := decide (diagonal src.box > diagonal cut.box)
  let A := if larger then src else cut
  let B := if larger then cut else src
  { overlap := Box.intersect src.box cut.box
    srcLarger := larger
    insideFirst :=
      if sw && cw then isInside (A.winding (B.mesh.pos 0))
      else if sw then isInside (src.winding (cut.mesh.pos 0))
      else isInside (cut.winding (src.mesh.pos 0))
    insideSecond := isInside (B.winding (src.mesh.pos 0)) }

/-- `check_and_store_input_mesh_intersection_type` — preproc.cpp:1628-1727. -/
noncomputable def intersectionType (src cut : Body) : IType :=
  enclosureType src.mesh.isClosed cut.mesh.isClosed (enclosure src.mesh.isClosed cut.mesh.isClosed src cut)

end Mcut.Winding
