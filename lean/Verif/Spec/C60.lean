import Verif.Model.Soup
import Verif.Spec.C33

/-! Specification notions used in the statements of `Props/C60.lean`. -/
namespace Mcut.Extract
open Mcut.Hmesh Mcut.Preproc
variable {P : Type}

/-- Spec: a mesh as the kernel receives it: built by mesh operations, without removed vertices and faces. -/
structure Intact (d : P) (m : Mesh P) : Prop where
  reach : Reachable d m
  noRemoved : m.vRem = [] ∧ m.fRem = []

/-- Spec: the polygons of a mesh. -/
def polygons (m : Mesh P) : List (List Nat) := (List.range m.numFaces).map m.verticesAroundFace

/-- Spec: the vertices of both meshes, numbered as the client sees them: first the source mesh, then the cut mesh. -/
def clientPos (sm cs : Mesh P) (o : Nat) : P := if o < sm.numVertices then sm.pos o else cs.pos (o - sm.numVertices)

/-- Spec: `ps` consists of a copy of `sm` followed by a copy of `cs`. -/
structure MergeOf (d : P) (sm cs ps : Mesh P) : Prop where
  intact : Intact d ps
  numV : ps.numVertices = sm.numVertices + cs.numVertices
  numF : ps.numFaces = sm.numFaces + cs.numFaces
  pos : ∀ v, v < ps.numVertices → ps.pos v = clientPos sm cs v
  smFaces : ∀ f, f < sm.numFaces → ps.verticesAroundFace f = sm.verticesAroundFace f
  cmFaces : ∀ f, f < cs.numFaces → ps.verticesAroundFace (sm.numFaces + f) ~r (cs.verticesAroundFace f).map (fun v => v + sm.numVertices)

/-- Spec: the thread counts and mesh sizes for which the code works: any without the thread pool; with it, meshes that are not empty and fit the index arithmetic. -/
def Sizes (sm cs : Mesh P) (threads : Option Nat) : Prop :=
  ∀ t, threads = some t → 0 < t ∧ (0 < sm.numVertices ∧ sm.numVertices + 1024 ≤ 2 ^ 32) ∧ (0 < sm.numFaces ∧ sm.numFaces + 1024 ≤ 2 ^ 32) ∧
    (0 < cs.numFaces ∧ cs.numFaces + 1024 ≤ 2 ^ 32)

end Mcut.Extract
