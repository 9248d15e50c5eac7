import Verif.Spec.C41
import Verif.Spec.C42

/-!
# Specification for C58: projecting the points of a plane
-/
namespace Mcut.Geom

variable {K : Type*} [Field K] [LinearOrder K]

/-- `l` is the length of `n`. -/
def IsLength (n : V3 K) (l : K) : Prop := 0 < l ∧ l * l = n.x * n.x + n.y * n.y + n.z * n.z

/-- Two points of one plane with normal `n`. -/
def SamePlane (n x y : V3 K) : Prop := x.x * n.x + x.y * n.y + x.z * n.z = y.x * n.x + y.y * n.y + y.z * n.z

/-- The directions for which the projection of the library breaks down: `m` is the index of the component that is dropped. -/
def Singular (n : V3 K) (m : Nat) : Prop :=
  (m = 0 ∧ 2 * (n.y * n.y - n.z * n.z) = n.x * n.x) ∨ (m = 2 ∧ 2 * (n.y * n.y - n.x * n.x) = n.z * n.z)

/-- All points lie in a plane. -/
def Planar (vs : List (V3 K)) : Prop := ∃ N : V3 K, N ≠ ⟨0, 0, 0⟩ ∧ ∀ v ∈ vs, ∀ w ∈ vs, SamePlane N v w

end Mcut.Geom
