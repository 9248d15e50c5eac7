import Verif.Model.Geom

/-!
# Planar sections (source/frontend.cpp:697-864)

`generate_supertriangle_from_mesh_vertices`, which makes the cut mesh of `mcEnqueueDispatchPlanarSection`: one triangle. Exact arithmetic; the conversion of the coordinates from
and to `float` (713-715, 737-751, 819-857) is left out. `sq` stands for the square root. Where the code divides by a length that is zero (the coordinates become NaN) the model gives `none`.
-/
namespace Mcut.PlanarSection
open Mcut.Geom
variable {K : Type*} [Field K] [LinearOrder K]

/-- `operator/` — include/mcut/internal/math.h:231-234. -/
def div3 (v : V3 K) (r : K) : V3 K := ⟨v.x / r, v.y / r, v.z / r⟩

/-- `operator*` — include/mcut/internal/math.h:236-239. -/
def mul3 (v : V3 K) (r : K) : V3 K := ⟨v.x * r, v.y * r, v.z * r⟩

/-- `length` — include/mcut/internal/math.h:487-490. -/
def length (sq : K → K) (v : V3 K) : K := sq (dot v v)

/-- `normalize` — include/mcut/internal/math.h:493-496; `none`: division by zero. -/
def normalize (sq : K → K) (v : V3 K) : Option (V3 K) := if length sq v = 0 then none else some (div3 v (length sq v))

/-- `clamp` — source/frontend.cpp:697-701. -/
def clamp (n lower upper : K) : K := max lower (min n upper)

/-- What the loop over the vertices of the mesh collects — source/frontend.cpp:719-733. -/
structure Scan (K : Type*) where
  projMin : K
  projMax : K
  bboxMin : V3 K
  bboxMax : V3 K
  mean : V3 K
  mostMin : V3 K
  mostMax : V3 K

/-- One vertex — source/frontend.cpp:737-770. -/
def scanStep (n : V3 K) (s : Scan K) (p : V3 K) : Scan K :=
  { bboxMin := ⟨min s.bboxMin.x p.x, min s.bboxMin.y p.y, min s.bboxMin.z p.z⟩
    bboxMax := ⟨max s.bboxMax.x p.x, max s.bboxMax.y p.y, max s.bboxMax.z p.z⟩
    mean := add3 s.mean p
    projMin := if dot n p < s.projMin then dot n p else s.projMin
    mostMin := if dot n p < s.projMin then p else s.mostMin
    projMax := if s.projMax < dot n p then dot n p else s.projMax
    mostMax := if s.projMax < dot n p then p else s.mostMax }

/-- The loop — source/frontend.cpp:719-771. `big`: `1e10`. -/
def scan (big : K) (n : V3 K) (vs : List (V3 K)) : Scan K :=
  vs.foldl (scanStep n) ⟨big, -big, ⟨big, big, big⟩, ⟨-big, -big, -big⟩, ⟨0, 0, 0⟩, ⟨0, 0, 0⟩, ⟨0, 0, 0⟩⟩

/-- `centroid` — source/frontend.cpp:775-782: the point at the section offset. It is computed and never used. -/
def centroid (sq : K → K) (n : V3 K) (offset eps : K) (s : Scan K) : V3 K :=
  add3 s.mostMin (mul3 n (clamp offset eps (1 - eps) * length sq (sub3 s.mostMax s.mostMin)))

/-- `max_normal_comp_idx` — source/frontend.cpp:784-798. -/
def maxComp (n : V3 K) : Nat :=
  let a := if |n.x| < |n.y| then (1, |n.y|) else (0, |n.x|)
  if a.2 < |n.z| then 2 else a.1

/-- A vector that is one at a component — source/frontend.cpp:800-804. -/
def axis : Nat → V3 K
  | 0 => ⟨1, 0, 0⟩
  | 1 => ⟨0, 1, 0⟩
  | _ => ⟨0, 0, 1⟩

/-- `w` — source/frontend.cpp:800-805. -/
def helper (n : V3 K) : V3 K := if axis (maxComp n) = n then axis ((maxComp n + 1) % 3) else axis (maxComp n)

/-- `generate_supertriangle_from_mesh_vertices` — source/frontend.cpp:703-863: the three corners of the triangle. -/
def superTriangle (sq : K → K) (big : K) (vs : List (V3 K)) (normal : V3 K) (offset eps : K) : Option (V3 K × V3 K × V3 K) :=
  (normalize sq normal).bind fun n =>
    let s := scan big n vs
    let mean := div3 s.mean (vs.length : K)
    let diag := length sq (sub3 s.bboxMax s.bboxMin)
    let _centroid := centroid sq n offset eps s
    let u := cross n (helper n)
    let v := cross n u
    let onPlane := sub3 mean (mul3 n (dot mean n))
    (normalize sq (add3 u v)).bind fun uvPos =>
    (normalize sq (sub3 u v)).bind fun uvNeg =>
    (normalize sq (add3 uvPos uvNeg)).bind fun uv =>
      some (add3 onPlane (mul3 uvPos (diag * 2)), add3 onPlane (mul3 uvNeg (diag * 2)), sub3 onPlane (mul3 uv (diag * 2)))

/-- The check of the section offset in `mcEnqueueDispatchPlanarSection` — source/mcut.cpp:633-634: `true` if the call is refused because of it. -/
def offsetRefused (offset : K) : Bool := decide (offset ≤ 0) && decide (1 ≤ offset)

end Mcut.PlanarSection
