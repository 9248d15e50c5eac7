import Verif.Spec.C24
import Verif.Spec.C89

/-! # Specification for C90: the triangulation of a connected component -/
namespace Mcut.Cdt
open Mcut.Geom Mcut.Hmesh Mcut.Preproc

/-- Two faces with two corners in common have the edge between them in common. -/
def Simple (fs : List (List Nat)) : Prop :=
  ∀ (i j : Nat) (f g : List Nat), fs[i]? = some f → fs[j]? = some g → i ≠ j → ∀ a b, a ≠ b → a ∈ f → b ∈ f → a ∈ g → b ∈ g → (a, b) ∈ dirEdges f ∨ (b, a) ∈ dirEdges f

/-- An array of indices, three for each triangle. -/
def thirds : List Nat → List (List Nat)
  | a :: b :: c :: l => [a, b, c] :: thirds l
  | _ => []

/-- The triangles `T` are the faces `fs`, cut by diagonals. -/
structure Triangulated (fs T : List (List Nat)) : Prop where
  corners : ∀ t ∈ T, t.length = 3 ∧ t.Nodup ∧ ∃ f ∈ fs, ∀ v ∈ t, v ∈ f
  count : T.length = (fs.map (fun f => f.length - 2)).sum
  /-- No directed edge occurs twice: the triangles are a mesh, and oriented consistently. -/
  once : (T.flatMap dirEdges).Nodup
  /-- Each edge of a face is there, in the same direction. -/
  edges : ∀ p ∈ fs.flatMap dirEdges, p ∈ T.flatMap dirEdges
  /-- The border does not change. -/
  border : ∀ a b, ((a, b) ∈ T.flatMap dirEdges ∧ (b, a) ∉ T.flatMap dirEdges) ↔ ((a, b) ∈ fs.flatMap dirEdges ∧ (b, a) ∉ fs.flatMap dirEdges)

variable {K : Type} [Field K] [LinearOrder K]

/-- What a query of the triangulation sees: the corners of each face, and the triangles of each face that is not a triangle. -/
structure Shown {D F : Type} (sq : K → K) (big : K) (walk : Nat → St → Nat → Nat) (pick : Nat → List (Nat × Nat) → Nat × Nat) (fs : List (List Nat)) (cc : Mesh (V3 K)) (c : CC.Comp D F) : Prop where
  faces : c.faces = (List.range fs.length).map cc.verticesAroundFace
  tri : ∀ i f, fs[i]? = some f → f.length ≠ 3 → ∃ out, triangulateFace sq big (walk i) (pick i) cc i = some out ∧ c.tri i = out.flatten

end Mcut.Cdt
