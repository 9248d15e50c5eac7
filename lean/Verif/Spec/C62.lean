import Verif.Spec.C43
import Verif.Model.Narrow

/-! Specification notions used in the statements of `Props/C62.lean`. -/
namespace Mcut.Geom
variable {K : Type*} [Field K] [LinearOrder K]

/-- Spec: `p` is a point of the closed triangle. -/
def InTriangle (a b c p : V3 K) : Prop :=
  ∃ u v w : K, 0 ≤ u ∧ 0 ≤ v ∧ 0 ≤ w ∧ u + v + w = 1 ∧
    p = ⟨u * a.x + v * b.x + w * c.x, u * a.y + v * b.y + w * c.y, u * a.z + v * b.z + w * c.z⟩

/-- Spec: `p` is a point of one of the three sides. -/
def OnSide (a b c p : V3 K) : Prop := OnSeg3 a b p ∨ OnSeg3 b c p ∨ OnSeg3 c a p

end Mcut.Geom
