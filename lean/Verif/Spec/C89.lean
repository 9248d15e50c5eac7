import Verif.Spec.C58
import Verif.Spec.C88
import Verif.Model.CdtFace

/-! # Specification for C89: triangulating a face -/
namespace Mcut.Cdt
open Mcut.Geom Mcut.Hmesh
variable {K : Type} [Field K] [LinearOrder K]

/-- The places of the corners of face `i`. -/
def corners (cc : Mesh (V3 K)) (i : Nat) : List (V3 K) := (cc.verticesAroundFace i).map cc.pos

/-- The corners are at different places in one plane, there is an area, and its direction is not one of those for which the projection breaks down (see C58). -/
structure Flat (vs : List (V3 K)) : Prop where
  distinct : vs.Nodup
  planar : ∀ x ∈ vs, ∀ y ∈ vs, SamePlane (polygonNormal vs) x y
  area : polygonNormal vs ≠ ⟨0, 0, 0⟩
  direction : ¬Singular (polygonNormal vs) (largestComponent (polygonNormal vs))

/-- `q` is strictly inside the triangle with the corners `f`, which are at `P`. -/
def Within (P : Nat → V3 K) (f : List Nat) (q : V3 K) : Prop :=
  ∃ (a b c : Nat) (x y z : K), f = [a, b, c] ∧ 0 < x ∧ 0 < y ∧ 0 < z ∧ x + y + z = 1 ∧
    q = ⟨x * (P a).x + y * (P b).x + z * (P c).x, x * (P a).y + y * (P b).y + z * (P c).y, x * (P a).z + y * (P b).z + z * (P c).z⟩

/-- The normal of a triangle, twice as long as its area is large. -/
def triangleNormal (P : Nat → V3 K) (f : List Nat) : V3 K := polygonNormal (f.map P)

/-- The triangles are a face with normal `n`: all face the same side as the face, they do not overlap, and their areas add up to that of the face. -/
structure Covers (n : V3 K) (P : Nat → V3 K) (out : List (List Nat)) : Prop where
  side : ∀ f ∈ out, 0 < dot n (triangleNormal P f)
  apart : ∀ (q : V3 K) (k k' : Nat) (f f' : List Nat), out[k]? = some f → out[k']? = some f' → Within P f q → Within P f' q → k = k'
  area : (out.map (fun f => dot n (triangleNormal P f))).sum = dot n n

/-- The triangulator is left with an exception: for one of the corners the search does not end in a triangle that contains it, … -/
def SearchFails (sq : K → K) (big : K) (walk : St → Nat → Nat) (R : List (V2 K)) : Prop :=
  ∃ m s, m < R.length ∧ insertFirst (places sq big R) walk R.length m = some s ∧ ¬Arrives (places sq big R) s (3 + m) (walk s (3 + m))

/-- … or, when all corners are in, an edge of the face is not an edge of a triangle. -/
def EdgeMissing (sq : K → K) (big : K) (walk : St → Nat → Nat) (R : List (V2 K)) : Prop :=
  ∃ s, insertVertices (places sq big R) walk R.length = some s ∧ ∃ i < R.length, ∀ t ∈ s.tris, ∀ j, edge (t.v j) (t.v (j + 1)) ≠ edge (i + 3) ((i + 1) % R.length + 3)

/-- The square root is good enough for this face: it has the length of the normal, and the enclosing triangle encloses the projected corners. An exact square root is (`exact_of_root`). -/
structure Exact (sq : K → K) (big : K) (vs : List (V3 K)) : Prop where
  length : IsLength (polygonNormal vs) (sq (dot (polygonNormal vs) (polygonNormal vs)))
  placed : ∀ R, (R = flattened sq vs ∨ R = (flattened sq vs).reverse) → Placed (places sq big R) (3 + R.length)

end Mcut.Cdt
