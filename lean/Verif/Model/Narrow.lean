import Verif.Model.Geom

/-!
# One edge against one face (source/kernel.cpp, the narrow phase)

Exact arithmetic, as in `Model/Geom.lean`.
-/
namespace Mcut.Geom

variable {K : Type*} [Field K] [LinearOrder K]

/-- What the kernel does with one candidate pair: nothing, report a violation of general position, or register an intersection point. -/
inductive TestResult (K : Type*) | miss | violation | point (p : V3 K)
deriving DecidableEq

/-- `result == 'i' || (result == 'v' || result == 'e')` — kernel.cpp:2511, 2943-2948. -/
def touches (c : InCode) : Bool := c != .outside

/-- The treatment of one edge (end points `q`, `r`) and one face, given the code of `compute_segment_plane_intersection_type`, the
point-in-polygon test of the face and the point written by `compute_segment_plane_intersection` (`(0,0,0)` if nothing is written) —
kernel.cpp:2481-2564 (with a pool), 2892-3012 (without). -/
def edgeFaceTest (code : PlaneCode) (inFace : V3 K → InCode) (pt : Option (V3 K)) (q r : V3 K) : TestResult K :=
  match code with
  | .none => .miss
  | .q => if touches (inFace q) then .violation else .miss
  | .r => if touches (inFace r) then .violation else .miss
  | .inPlane => if touches (inFace q) then .violation else if touches (inFace r) then .violation else .miss
  | .one =>
    match inFace (pt.getD ⟨0, 0, 0⟩) with
    | .vertex => .violation
    | .edge => .violation
    | .inside => .point (pt.getD ⟨0, 0, 0⟩)
    | .outside => .miss

/-- The whole test of one candidate pair: the plane of the face is the one computed before by `compute_polygon_plane_coefficients`
(kernel.cpp:2173-2345), `l` is the length of its normal. `Option.none` is undefined behaviour in the choice of the three vertices —
kernel.cpp:2481-2564, 2892-3012. -/
def EdgeFace (vs : List (V3 K)) (l : K) (q r : V3 K) (res : Option (TestResult K)) : Prop :=
  ∃ code, Returns vs (planeCoefficients vs).1 l (planeCoefficients vs).2.2 (fun a b c => segmentPlaneType a b c q r) code ∧
    res = code.map (fun c => edgeFaceTest c
      (fun p => pointInPolygon3 (planeCoefficients vs).1 l (planeCoefficients vs).2.2 p vs)
      (segmentPlane (planeCoefficients vs).1 (planeCoefficients vs).2.1 q r).2 q r)

end Mcut.Geom
