import Verif.Model.Geom

/-!
# Specification for C42: planes, segments and lines as sets of points
-/
namespace Mcut.Geom

variable {K : Type*} [Field K] [LinearOrder K]

/-- The point at parameter `t` of the line through `q` and `r`. -/
def lerp3 (q r : V3 K) (t : K) : V3 K := ⟨q.x + t * (r.x - q.x), q.y + t * (r.y - q.y), q.z + t * (r.z - q.z)⟩

/-- `p` is a point of the closed segment. -/
def OnSeg3 (q r p : V3 K) : Prop := ∃ t, 0 ≤ t ∧ t ≤ 1 ∧ p = lerp3 q r t

/-- `p` is a point of the line. -/
def OnLine3 (q r p : V3 K) : Prop := ∃ t, p = lerp3 q r t

/-- The plane `normal · x = d`. -/
def OnPlane (n : V3 K) (d : K) (x : V3 K) : Prop := x.x * n.x + x.y * n.y + x.z * n.z = d

/-- The plane through three points. -/
def OnPlaneOf (a b c x : V3 K) : Prop :=
  ∃ u v, x = ⟨a.x + u * (b.x - a.x) + v * (c.x - a.x), a.y + u * (b.y - a.y) + v * (c.y - a.y), a.z + u * (b.z - a.z) + v * (c.z - a.z)⟩

/-- The three points lie on no common line. -/
def NotCollinear3 (a b c : V3 K) : Prop := a ≠ b ∧ ¬ OnLine3 a b c

/-- The codes `'p'`, `'q'`, `'r'`, `'0'`, `'1'` of a segment from `q` to `r`, for a plane given as a set of points. -/
def PlaneCodeSpec (plane : V3 K → Prop) (q r : V3 K) : PlaneCode → Prop
  | .inPlane => ∀ p, OnSeg3 q r p → plane p
  | .q => plane q ∧ ¬ plane r
  | .r => plane r ∧ ¬ plane q
  | .none => ∀ p, OnSeg3 q r p → ¬ plane p
  | .one => ¬ plane q ∧ ¬ plane r ∧ ∃ p, OnSeg3 q r p ∧ plane p

end Mcut.Geom
