import Verif.Model.Preproc
import Verif.Spec.C21
import Verif.Spec.Hmesh

/-! Specification notions used in the statements of `Props/C33.lean`. -/
namespace Mcut.Preproc
open Mcut.Hmesh Mcut.Sched
variable {P : Type}

/-- Spec: the face sizes a client passes (null: all triangles). -/
def Arrays.sizesOf (a : Arrays) : List Nat := a.sizes.getD (List.replicate a.numFaces 3)

/-- Spec: cutting an array into consecutive pieces of given sizes. -/
def splitBy : List Nat → List Nat → List (List Nat)
  | [], _ => []
  | s :: ss, l => l.take s :: splitBy ss (l.drop s)

/-- Spec: the polygons that the arrays describe. -/
def Arrays.faces (a : Arrays) : List (List Nat) := splitBy a.sizesOf a.indices

/-- Spec: arrays of the announced lengths, with at least one face, that fit the index types. -/
structure Arrays.WellSized (a : Arrays) : Prop where
  pos : 0 < a.numFaces
  sizes : ∀ l, a.sizes = some l → l.length = a.numFaces
  indices : a.indices.length = a.sizesOf.sum
  fits : a.sizesOf.sum < 2 ^ 31 ∧ a.numFaces + 1024 ≤ 2 ^ 32

/-- Spec: the directed edges of a polygon. -/
def dirEdges (f : List Nat) : List (Nat × Nat) := (List.range f.length).map (fun i => (f.getD i 0, f.getD ((i + 1) % f.length) 0))

/-- Spec: a polygon: at least three vertices, all different, all existing. -/
def GoodFace (nV : Nat) (f : List Nat) : Prop := 3 ≤ f.length ∧ f.Nodup ∧ ∀ v ∈ f, v < nV

/-- Spec: a valid polygon mesh: only polygons, and no directed edge occurs twice. -/
def ValidMesh (nV : Nat) (fs : List (List Nat)) : Prop := (∀ f ∈ fs, GoodFace nV f) ∧ (fs.flatMap dirEdges).Nodup

/-- Spec: face `f` of the arrays is not a polygon. -/
def BadFace (a : Arrays) (f : Nat) : Prop := ∃ l, a.faces[f]? = some l ∧ ¬ GoodFace a.numVertices l

/-- Spec: what the threads do is possible: at least one thread, prefix sums as some interleaving leaves them, and the error flag is seen by the main
thread when a block it has waited for contains a bad face, and only if there is a bad face somewhere. -/
structure LoadOk (a : Arrays) (env : LoadEnv) : Prop where
  avail : 0 < env.avail
  ps : CC.PsViews a.sizesOf env.avail 1024 env.ps
  seen : ∀ bs, parallelForBlocks a.numFaces env.avail 1024 = .ok bs → ∀ i, i + 1 < bs.length →
    ((∃ j b, j ≤ i ∧ bs[j]? = some b ∧ ∃ f, b.1 ≤ f ∧ f < b.2 ∧ BadFace a f) → env.seen i = true) ∧
    (env.seen i = true → ∃ f, BadFace a f)

end Mcut.Preproc
