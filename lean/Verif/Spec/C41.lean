import Verif.Model.Geom

/-!
# Specification for C41: segments as sets of points
-/
namespace Mcut.Geom

variable {K : Type*} [Field K] [LinearOrder K]

/-- The point at parameter `t` of the line through `a` and `b`. -/
def lerp (a b : V2 K) (t : K) : V2 K := ⟨a.x + t * (b.x - a.x), a.y + t * (b.y - a.y)⟩

/-- `p` is a point of the closed segment. -/
def OnSeg (a b p : V2 K) : Prop := ∃ t, 0 ≤ t ∧ t ≤ 1 ∧ p = lerp a b t

/-- The directions of the two segments are parallel. -/
def Parallel (a b c d : V2 K) : Prop := (b.x - a.x) * (d.y - c.y) = (b.y - a.y) * (d.x - c.x)

/-- `p` is common to both segments. -/
def Common (a b c d p : V2 K) : Prop := OnSeg a b p ∧ OnSeg c d p

end Mcut.Geom
