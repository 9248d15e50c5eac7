import Verif.Spec.C65
import Verif.Spec.C66
import Verif.Spec.C37
import Verif.Model.Registry

/-! Specification notions used in the statements of `Props/C69.lean`. -/
namespace Mcut.Whole
open Mcut.Hmesh Mcut.Registry Mcut.Pairs
variable {K : Type} [Field K] [LinearOrder K]

/-- The same point, as the geometric definitions write it. -/
def pt (p : Box.V3 K) : Geom.V3 K := ⟨p.x, p.y, p.z⟩

/-- The same point, as the meshes write it. -/
def unpt (p : Geom.V3 K) : Box.V3 K := ⟨p.x, p.y, p.z⟩

/-- Spec: the corners of a face. -/
def corners (ps : Mesh (Box.V3 K)) (f : Nat) : List (Geom.V3 K) := (ps.verticesAroundFace f).map (fun v => pt (ps.pos v))

/-- Spec: `x` is a point of face `f` (a triangle). -/
def InFace (ps : Mesh (Box.V3 K)) (f : Nat) (x : Geom.V3 K) : Prop := ∃ a b c, corners ps f = [a, b, c] ∧ Geom.InTriangle a b c x

/-- Spec: every face is a triangle that can be tested (C65); no face of the cut mesh lies in the plane of a face of the source mesh. `l`: the lengths of the normals. -/
structure Triangles (ps : Mesh (Box.V3 K)) (smF : Nat) (l : Nat → K) : Prop where
  testable : ∀ f, f < ps.numFaces → ∃ a b c, corners ps f = [a, b, c] ∧ Geom.Testable a b c (l f)
  apart : ∀ s c, s < smF → smF ≤ c → c < ps.numFaces → ∀ p q r, corners ps s = [p, q, r] → ∃ x ∈ corners ps c, ¬ Geom.OnPlaneOf p q r x

/-- The outcome of a test as the recording stage sees it. -/
def outcome : Geom.TestResult K → Outcome (Box.V3 K)
  | .miss => .miss
  | .violation => .violation
  | .point p => .point (unpt p)

/-- Spec: `test` is what the narrow phase (`Model/Narrow.lean`) may compute for an edge and a face. -/
def TestOf (ps : Mesh (Box.V3 K)) (l : Nat → K) (test : Nat → Nat → Outcome (Box.V3 K)) : Prop :=
  ∀ e g, LiveE ps e → g < ps.numFaces → ∃ r, Geom.EdgeFace (corners ps g) (l g) (pt (ps.pos (ps.edgeVertex e 0))) (pt (ps.pos (ps.edgeVertex e 1))) (some r) ∧ test e g = outcome r

/-- Spec: the candidate pairs as C61 leaves them, in any order: each edge with the faces of the other mesh whose box meets the box of the edge. -/
structure CandidatesOf (bot top : K) (bS bC : Nat → Box.BBox K) (smF : Nat) (ps : Mesh (Box.V3 K)) (cand : List (Nat × List Nat)) : Prop where
  keys : (cand.map Prod.fst).Nodup
  faces : ∀ x ∈ cand, x.2.Nodup
  pairs : ∀ e g, (∃ fs, (e, fs) ∈ cand ∧ g ∈ fs) ↔ (∃ f, f < ps.numFaces ∧ OnFace ps e f ∧ g < ps.numFaces ∧ OtherSide smF f g) ∧
    Box.intersect (edgeBox bot top ps e) (if g < smF then bS g else bC (g - smF)) = true

/-- Spec: every face box contains the corners of its face. -/
def Boxed (bot top : K) (bS bC : Nat → Box.BBox K) (smF : Nat) (ps : Mesh (Box.V3 K)) : Prop :=
  ∀ g, g < ps.numFaces → Box.Sub (Box.boxOfPoints bot top ((ps.verticesAroundFace g).map ps.pos)) (if g < smF then bS g else bC (g - smF))

/-- Spec: an edge (with ends `q`, `r`) touches a triangle in a way that is not general: one of its ends is a point of the triangle, or it does not lie in the plane of
the triangle and passes a side. -/
def Touches (a b c q r : Geom.V3 K) : Prop :=
  Geom.InTriangle a b c q ∨ Geom.InTriangle a b c r ∨ (¬ (Geom.OnPlaneOf a b c q ∧ Geom.OnPlaneOf a b c r) ∧ ∃ p, Geom.OnSeg3 q r p ∧ Geom.OnSide a b c p)

/-- Spec: some edge of one mesh touches a face of the other mesh. -/
def NotGeneral (ps : Mesh (Box.V3 K)) (smF : Nat) : Prop :=
  ∃ e f g a b c, f < ps.numFaces ∧ OnFace ps e f ∧ g < ps.numFaces ∧ OtherSide smF f g ∧ corners ps g = [a, b, c] ∧
    Touches a b c (pt (ps.pos (ps.edgeVertex e 0))) (pt (ps.pos (ps.edgeVertex e 1)))

/-- Spec: `cand` lists the entries of the hash map `E` in some order. -/
def Enumerates (E : EdgeMap) (cand : List (Nat × List Nat)) : Prop := (cand.map Prod.fst).Nodup ∧ ∀ e fs, (e, fs) ∈ cand ↔ E e = some fs

/-- Spec: what the recording stage may leave for the candidate pairs `cand`, without or with the thread pool. -/
def Leaves {P : Type} (ps : Mesh P) (smV smF : Nat) (test : Nat → Nat → Outcome P) (cand : List (Nat × List Nat)) (res : Option (Tables P)) : Prop :=
  res = sequential ps smV smF ps.numVertices test cand ∨
  ∃ (M : List (Nat × List Nat)) (W : List (List (Nat × List Nat))) (s : Par P), (M ++ W.flatten).Perm cand ∧ Registry.Reach ps smV smF ps.numVertices test M W s ∧ s.Done W ∧ res = s.result W

end Mcut.Whole
