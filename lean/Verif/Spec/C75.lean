import Verif.Model.Winding
import Verif.Spec.C34

/-! Specification notions used in the statements of `Props/C75.lean`. -/
namespace Mcut.Winding
open Mcut.Hmesh Mcut.Dispatch

/-- Spec: `q` is a point of the segment from `a` to `b`. -/
def InSegment (a b q : Vec) : Prop := ∃ α β : ℝ, 0 ≤ α ∧ 0 ≤ β ∧ α + β = 1 ∧
  q = ⟨α * a.x + β * b.x, α * a.y + β * b.y, α * a.z + β * b.z⟩

/-- Spec: `q` is a point of the triangle `a b c` (interior or boundary). -/
def InTriangle (a b c q : Vec) : Prop := ∃ α β γ : ℝ, 0 ≤ α ∧ 0 ≤ β ∧ 0 ≤ γ ∧ α + β + γ = 1 ∧
  q = ⟨α * a.x + β * b.x + γ * c.x, α * a.y + β * b.y + γ * c.y, α * a.z + β * b.z + γ * c.z⟩

/-- Spec: `q` is a point of the convex hull of four points; if they are the corners of a flat convex quadrilateral in order, of the quadrilateral. -/
def InQuad (a b c d q : Vec) : Prop := ∃ α β γ δ : ℝ, 0 ≤ α ∧ 0 ≤ β ∧ 0 ≤ γ ∧ 0 ≤ δ ∧ α + β + γ + δ = 1 ∧
  q = ⟨α * a.x + β * b.x + γ * c.x + δ * d.x, α * a.y + β * b.y + γ * c.y + δ * d.y, α * a.z + β * b.z + γ * c.z + δ * d.z⟩

/-- Spec: corner number `i` of face `f`. -/
def corner (m : Mesh Vec) (f i : Nat) : Nat := (m.verticesAroundFace f).getD i 0

/-- Spec: the triangles of a face: a triangle is one, a quadrilateral is divided by one diagonal, other faces are divided as given by `cdt` (numbers of corners, three for each triangle). -/
def trianglesOf (b : Body) (f : Nat) : List (Nat × Nat × Nat) :=
  if (b.mesh.verticesAroundFace f).length = 3 then [(corner b.mesh f 0, corner b.mesh f 1, corner b.mesh f 2)]
  else if (b.mesh.verticesAroundFace f).length = 4 then
    [(corner b.mesh f 0, corner b.mesh f 1, corner b.mesh f 3), (corner b.mesh f 1, corner b.mesh f 2, corner b.mesh f 3)]
  else (List.range ((b.cdt f).length / 3)).map (fun i =>
    (corner b.mesh f ((b.cdt f).getD (3 * i) 0), corner b.mesh f ((b.cdt f).getD (3 * i + 1) 0), corner b.mesh f ((b.cdt f).getD (3 * i + 2) 0)))

/-- Spec: all triangles of a mesh. -/
def triangles (b : Body) : List (Nat × Nat × Nat) := ((List.range b.mesh.nF).filter (fun f => decide (f ∉ b.mesh.fRem))).flatMap (trianglesOf b)

/-- Spec: the directed sides of triangles. -/
def sides (ts : List (Nat × Nat × Nat)) : List (Nat × Nat) := ts.flatMap (fun t => [(t.1, t.2.1), (t.2.1, t.2.2), (t.2.2, t.1)])

/-- Spec: triangles that divide a polygon: their sides are those of the polygon and diagonals, each in both directions. -/
def Divides (vs : List Nat) (ts : List (Nat × Nat × Nat)) : Prop :=
  ∃ D : List (Nat × Nat), (sides ts).Perm (Preproc.dirEdges vs ++ (D ++ D.map Prod.swap))

/-- Spec: a mesh that arose from legal operations and whose faces with more than four corners are divided into triangles. -/
structure Proper (b : Body) : Prop where
  reachable : ∃ d, Reachable d b.mesh
  inRange : ∀ f, LiveF b.mesh f → ∀ i ∈ b.cdt f, i < (b.mesh.verticesAroundFace f).length
  divided : ∀ f, LiveF b.mesh f → 4 < (b.mesh.verticesAroundFace f).length → Divides (b.mesh.verticesAroundFace f) (trianglesOf b f)

/-- Spec: `q` is a point of face `f`. -/
def OnFace (b : Body) (f : Nat) (q : Vec) : Prop :=
  if (b.mesh.verticesAroundFace f).length = 4 then
    InQuad (b.mesh.pos (corner b.mesh f 0)) (b.mesh.pos (corner b.mesh f 1)) (b.mesh.pos (corner b.mesh f 2)) (b.mesh.pos (corner b.mesh f 3)) q
  else ∃ t ∈ trianglesOf b f, InTriangle (b.mesh.pos t.1) (b.mesh.pos t.2.1) (b.mesh.pos t.2.2) q

/-- Spec: `q` is a point of the surface. -/
def OnSurface (b : Body) (q : Vec) : Prop := ∃ f, LiveF b.mesh f ∧ OnFace b f q

/-- Spec: the point at parameter `t` of the ray from `q` in direction `d`. -/
def ray (q d : Vec) (t : ℝ) : Vec := ⟨q.x + t * d.x, q.y + t * d.y, q.z + t * d.z⟩

/-- Spec: the ray meets the triangle. -/
def Hits (q d a b c : Vec) : Prop := ∃ t : ℝ, 0 ≤ t ∧ InTriangle a b c (ray q d t)

/-- Spec: the normal of a triangle whose corners are counter-clockwise seen from outside. -/
def normal (a b c : Vec) : Vec := cross (sub b a) (sub c a)

open Classical in
/-- Spec: 1 if the ray leaves through the triangle, -1 if it enters, 0 if it misses it. -/
noncomputable def crossing (q d a b c : Vec) : ℤ :=
  if Hits q d a b c then (if 0 < dot d (normal a b c) then 1 else if dot d (normal a b c) < 0 then -1 else 0) else 0

/-- Spec: how many more times the ray leaves through the surface than it enters. -/
noncomputable def crossings (b : Body) (q d : Vec) : ℤ := ((triangles b).map (fun t => crossing q d (b.mesh.pos t.1) (b.mesh.pos t.2.1) (b.mesh.pos t.2.2))).sum

/-- Spec: a direction in which the ray from `q` meets no side of a triangle. -/
def Generic (b : Body) (q d : Vec) : Prop :=
  (d.x ≠ 0 ∨ d.y ≠ 0 ∨ d.z ≠ 0) ∧ ∀ s ∈ sides (triangles b), ∀ t : ℝ, 0 ≤ t → ¬InSegment (b.mesh.pos s.1) (b.mesh.pos s.2) (ray q d t)

/-- Spec: `q` is enclosed by the mesh: it is watertight, and every ray from `q` that meets no side of a triangle leaves once more than it enters. -/
def Inside (b : Body) (q : Vec) : Prop := b.mesh.isClosed = true ∧ ¬OnSurface b q ∧ ∀ d, Generic b q d → crossings b q d = 1

/-- Spec: the mesh `a` is enclosed by the mesh `b`. -/
def EnclosedBy (a b : Body) : Prop := ∀ q, OnSurface a q → Inside b q

/-- Spec: the mesh is connected: any two of its vertices are joined by a path of sides of faces; vertex 0 is a corner of a face. -/
structure Joined (b : Body) : Prop where
  first : ∃ f, LiveF b.mesh f ∧ 0 ∈ b.mesh.verticesAroundFace f
  path : ∀ f, LiveF b.mesh f → ∀ v ∈ b.mesh.verticesAroundFace f,
    Relation.EqvGen (fun u w => ∃ f, LiveF b.mesh f ∧ (u, w) ∈ Preproc.dirEdges (b.mesh.verticesAroundFace f)) 0 v

/-- Spec: the box is that of the mesh, enlarged by `e` on all sides: no corner of a face is outside of the box of the mesh, and each of its sides touches a corner. -/
structure BoxOf (e : ℝ) (b : Body) : Prop where
  within : ∀ f, LiveF b.mesh f → ∀ v ∈ b.mesh.verticesAroundFace f, b.box.lo.x + e ≤ (b.mesh.pos v).x ∧ (b.mesh.pos v).x ≤ b.box.hi.x - e ∧
    b.box.lo.y + e ≤ (b.mesh.pos v).y ∧ (b.mesh.pos v).y ≤ b.box.hi.y - e ∧ b.box.lo.z + e ≤ (b.mesh.pos v).z ∧ (b.mesh.pos v).z ≤ b.box.hi.z - e
  lox : ∃ f v, LiveF b.mesh f ∧ v ∈ b.mesh.verticesAroundFace f ∧ (b.mesh.pos v).x = b.box.lo.x + e
  hix : ∃ f v, LiveF b.mesh f ∧ v ∈ b.mesh.verticesAroundFace f ∧ (b.mesh.pos v).x = b.box.hi.x - e
  loy : ∃ f v, LiveF b.mesh f ∧ v ∈ b.mesh.verticesAroundFace f ∧ (b.mesh.pos v).y = b.box.lo.y + e
  hiy : ∃ f v, LiveF b.mesh f ∧ v ∈ b.mesh.verticesAroundFace f ∧ (b.mesh.pos v).y = b.box.hi.y - e
  loz : ∃ f v, LiveF b.mesh f ∧ v ∈ b.mesh.verticesAroundFace f ∧ (b.mesh.pos v).z = b.box.lo.z + e
  hiz : ∃ f v, LiveF b.mesh f ∧ v ∈ b.mesh.verticesAroundFace f ∧ (b.mesh.pos v).z = b.box.hi.z - e

end Mcut.Winding
