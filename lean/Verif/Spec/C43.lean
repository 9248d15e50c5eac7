import Verif.Spec.C41
import Verif.Spec.C42

/-!
# Specification for C43: polygons as lists of edges, rays, triangles
-/
namespace Mcut.Geom

variable {K : Type*} [Field K] [LinearOrder K]

/-- The edges of the polygon, from each vertex to the next, the last one back to the first vertex. -/
def edgesOf {α : Type*} (poly : List α) : List (α × α) := poly.zip (poly.tail ++ poly.take 1)

/-- How many elements of a list have a property. -/
noncomputable def howMany {α : Type*} (p : α → Prop) (l : List α) : Nat := open Classical in l.countP (fun x => decide (p x))

/-- `q` is a point of an edge of the polygon. -/
def OnBoundary (q : V2 K) (poly : List (V2 K)) : Prop := ∃ e ∈ edgesOf poly, OnSeg e.1 e.2 q

/-- `p` is a point of the horizontal ray from `q` to the right (without `q`). -/
def OnRay (q p : V2 K) : Prop := p.y = q.y ∧ q.x < p.x

/-- The triangles of the fan from the first vertex. -/
def fan {α : Type*} (poly : List α) : List (α × α × α) := match poly with
  | [] => []
  | v0 :: rest => (rest.zip rest.tail).map (fun e => (v0, e.1, e.2))

/-- `q` is a point of the open triangle (a proper triangle). -/
def StrictlyInside (a b c q : V2 K) : Prop :=
  (∀ t, c ≠ lerp a b t) ∧ a ≠ b ∧ ∃ u v w : K, 0 < u ∧ 0 < v ∧ 0 < w ∧ u + v + w = 1 ∧
    q = ⟨u * a.x + v * b.x + w * c.x, u * a.y + v * b.y + w * c.y⟩

/-- `p` is a point of the open triangle in space (a proper triangle). -/
def StrictlyInside3 (a b c p : V3 K) : Prop :=
  NotCollinear3 a b c ∧ ∃ u v w : K, 0 < u ∧ 0 < v ∧ 0 < w ∧ u + v + w = 1 ∧
    p = ⟨u * a.x + v * b.x + w * c.x, u * a.y + v * b.y + w * c.y, u * a.z + v * b.z + w * c.z⟩

/-- All points of the list are strictly on one side of a line through `q`: `(u, w)` is a vector across the line. -/
def OneSide (q : V2 K) (poly : List (V2 K)) : Prop := ∃ u w : K, ∀ v ∈ poly, 0 < u * (v.x - q.x) + w * (v.y - q.y)

end Mcut.Geom
