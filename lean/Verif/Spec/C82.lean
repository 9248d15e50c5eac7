import Verif.Spec.C78
import Verif.Spec.C81
import Verif.Spec.C74
import Verif.Spec.C69

/-! Specification notions used in the statements of `Props/C82.lean`. -/
namespace Mcut.Origin
open Mcut.Hmesh Mcut.Extract Mcut.Registry Mcut.CutEdges Mcut.Boundary Mcut.Trace Mcut.Split
variable {P : Type}

/-- Spec: the corners of the faces of both input meshes, numbered as the maps number them: first the source mesh, then the cut mesh. -/
def clientFace (sm cs : Mesh P) (f : Nat) : List Nat :=
  if f < sm.numFaces then sm.verticesAroundFace f else (cs.verticesAroundFace (f - sm.numFaces)).map (fun v => sm.numVertices + v)

/-- Spec: the maps of an output mesh are true: following the vertex map leads to an input vertex in the same place, different ones for different vertices, and it is
undefined exactly for the seam vertices; the face map names a face of which the face is a part: its corners that are not seam vertices are corners of the input face, and all of
them are in places on the input face (`on f p`: place `p` is on input face `f`). -/
structure TrueMaps (sm cs : Mesh P) (on : Nat → P → Prop) (popV popF : Bool) (mesh : Mesh P) (seams : List Nat) (vmap : List (Option Nat)) (fmap : List Nat) : Prop where
  seamVertices : ∀ i ∈ seams, i < mesh.numVertices
  numV : popV = true → vmap.length = mesh.numVertices
  seam : popV = true → ∀ i, i < mesh.numVertices → (vmap[i]? = some none ↔ i ∈ seams)
  same : popV = true → ∀ i v : Nat, vmap[i]? = some (some v) → v < sm.numVertices + cs.numVertices ∧ mesh.pos i = clientPos sm cs v
  different : popV = true → ∀ i j v : Nat, vmap[i]? = some (some v) → vmap[j]? = some (some v) → i = j
  numF : popF = true → fmap.length = mesh.numFaces
  face : popF = true → ∀ i f : Nat, fmap[i]? = some f → f < sm.numFaces + cs.numFaces ∧
    ∀ x ∈ mesh.verticesAroundFace i, on f (mesh.pos x) ∧ (x ∉ seams → ∃ v ∈ clientFace sm cs f, mesh.pos x = clientPos sm cs v ∧ (popV = true → vmap[x]? = some (some v)))

/-- Spec: the notion of being on an input face fits: the corners of a face are on it, and so are the intersection points in it and on its edges. `ps` are both meshes in one, `R` the
intersection points with their edges and faces. -/
structure Fits (sm cs ps : Mesh P) (R : List (Nat × Nat × P)) (on : Nat → P → Prop) : Prop where
  corner : ∀ f v, f < sm.numFaces + cs.numFaces → v ∈ clientFace sm cs f → on f (clientPos sm cs v)
  inner : ∀ r ∈ R, on r.2.1 r.2.2
  edge : ∀ r ∈ R, ∀ f, OnEdge ps r.1 f → on f r.2.2

/-- Spec: what the kernel has found when it starts to trace polygons, for valid input meshes `sm` and `cs` in general position: the merged meshes `S`; the intersection points `R`
in the tables `t`, two for every pair of faces that has any; the cut edges `c`; the divided edges `st`; every face cut cleanly. -/
structure Setting (d : P) (junk : Nat) (sm cs : Mesh P) (threads : Option Nat) (S : Soup P) (R : List (Nat × Nat × P)) (t : Registry.Tables P) (keys : List (Nat × Nat))
    (csort : List Nat → List Nat) (inside : Nat → Nat → Nat → Bool) (sort : Nat → Nat → List Nat → List Nat) (edges : List Nat) (c : CutEdges.St P) (st : Boundary.St P)
    (pieces : Nat → List Nat) : Prop where
  source : Intact d sm
  sourceFaces : FromFaces d sm
  cutMesh : Intact d cs
  sourceValid : Preproc.ValidMesh sm.numVertices (polygons sm)
  cutValid : Preproc.ValidMesh cs.numVertices (polygons cs)
  sizes : Sizes sm cs threads
  merged : soup junk sm cs threads = some S
  recorded : Recorded S.ps sm.numFaces S.ps.numVertices R t
  tested : CrossTested S.ps sm.numFaces t.reg
  once : t.reg.Nodup
  twice : ∀ k, t.cut k ≠ [] → (t.cut k).length = 2
  pairs : ∀ k, k ∈ keys ↔ t.cut k ≠ []
  cutFound : cutEdges S.ps S.ps.numVertices t.reg csort inside t.cut keys (addPoints (copyVertices d S.ps).1 t.pts) = some c
  arranged : Arranges S.ps t.edges sort
  all : AllEdges S.ps edges
  divided : Divided d S.ps S.ps.numVertices t.edges sort edges c st pieces
  common : OneCommonEdge S.ps
  clean : ∀ f, f < sm.numFaces + cs.numFaces → CleanFace S.ps t.edges sort c f

section triangles
open Mcut.Whole
variable {K : Type} [Field K] [LinearOrder K]

/-- Spec: place `p` is a point of input face `f`, a triangle. -/
def OnClientFace (sm cs : Mesh (Box.V3 K)) (f : Nat) (p : Box.V3 K) : Prop :=
  ∃ a b c, (clientFace sm cs f).map (fun v => pt (clientPos sm cs v)) = [a, b, c] ∧ Geom.InTriangle a b c (pt p)

end triangles

end Mcut.Origin
