import Verif.Model.CdtTies
import Verif.Model.CdtWalk

/-!
# The triangulation of a face

Models `triangulate_face`, frontend.cpp:1002-1806, as a whole. The result is `none` for each exception, undefined behaviour, division by zero and each edge that `insert_edges` has to force into the triangulation. Messages are not modelled.
-/
namespace Mcut.Cdt
open Mcut.Geom Mcut.Hmesh

variable {K : Type} [Field K] [LinearOrder K]

/-- `signed_area`. The triangles of three consecutive corners are added up, which is not the area if there are more than three corners — frontend.cpp:1064-1073. -/
def turnSum (Q : List (V2 K)) : K :=
  ((List.range (Q.length - 2)).map (fun i => orient2d (at2 Q i) (at2 Q ((i + 1) % Q.length)) (at2 Q ((i + 2) % Q.length)))).sum

/-- `cc_face_vcoords2d`, before it is reversed; `sq` is the square root — frontend.cpp:1029-1062. -/
def flattened (sq : K → K) (vs : List (V3 K)) : List (V2 K) :=
  let c := planeCoefficients vs
  vs.map (project c.1 (sq (dot c.1 c.1)) c.2.2)

/-- `triangulate_face` from the insertion of the corners, which are at the places `R` (in reverse order, if `flipped`), to the end — frontend.cpp:1545-1806. -/
def triangulateCorners (sq : K → K) (big : K) (walk : St → Nat → Nat) (pick : List (Nat × Nat) → Nat × Nat) (cc : Mesh (V3 K)) (i : Nat) (flipped : Bool) (R : List (V2 K)) : Option (List (List Nat)) :=
  (insertVertices (places sq big R) walk R.length).bind fun s =>
  (insertEdges s R.length).bind fun fixed =>
  (eraseOuter s fixed).bind fun d =>
  (topology d R.length).bind fun ok =>
  if !ok || d.tris.isEmpty then some [] else emit ⟨0, 0, 0⟩ cc i flipped (pick d.fixed) d

/-- `triangulate_face`: an empty list if the face is skipped. `big` is the largest number, `walk` chooses the triangle in which the search for a point ends, `pick` is the first element of a set — frontend.cpp:1002-1806. -/
def triangulateFace (sq : K → K) (big : K) (walk : St → Nat → Nat) (pick : List (Nat × Nat) → Nat × Nat) (cc : Mesh (V3 K)) (i : Nat) : Option (List (List Nat)) :=
  let Q := flattened sq ((cc.verticesAroundFace i).map cc.pos)
  let flipped := decide (turnSum Q < 0)
  (breakTies sq (if flipped then Q.reverse else Q)).bind fun R =>
  if (findDuplicates R).2 = [] then triangulateCorners sq big walk pick cc i flipped R else some []

end Mcut.Cdt
