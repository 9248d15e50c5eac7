import Verif.Model.Extract
import Verif.Spec.C33
import Verif.Spec.C34

/-! Specification notions used in the statements of `Props/C59.lean`. -/
namespace Mcut.Extract
open Mcut.Hmesh Mcut.Preproc
variable {P : Type}

/-- Spec: the traced polygons: closed walks along halfedges of a mesh without faces, which form a valid polygon mesh. -/
structure Traced (m : Mesh P) (polys : List (List Nat)) : Prop where
  noFaces : m.nF = 0
  noRemoved : m.vRem = [] ∧ m.fRem = []
  live : ∀ p ∈ polys, ∀ h ∈ p, LiveH m h
  closed : ∀ p ∈ polys, ∀ i, i < p.length → m.source (p.getD ((i + 1) % p.length) 0) = some (m.target (p.getD i 0))
  valid : ValidMesh m.nV (polys.map (fun p => p.map m.target))

/-- Spec: the corners of polygon `f`. -/
def corners (m : Mesh P) (polys : List (List Nat)) (f : Nat) : List Nat := (polys.getD f []).map m.target

/-- Spec: two polygons hang together: some corners of them are connected by edges of the mesh. -/
def Linked (m : Mesh P) (polys : List (List Nat)) (f g : Nat) : Prop :=
  ∃ u v, u ∈ corners m polys f ∧ v ∈ corners m polys g ∧ Connected m u v

/-- Spec: mesh `c` is a copy of the polygons `fs`: vertex `i` of `c` is a copy of vertex `vs[i]`, different ones for different `i`, face `i` of `c` has (up to
rotation) the corners of polygon `fs[i]`, in the same order, and there are no other vertices, faces and edges; no edge is there twice. -/
structure CopyOf (d : P) (m : Mesh P) (polys : List (List Nat)) (c : Mesh P) (vs fs : List Nat) : Prop where
  mesh : Reachable d c
  noRemoved : c.vRem = [] ∧ c.fRem = []
  numV : c.numVertices = vs.length
  numF : c.numFaces = fs.length
  vsNodup : vs.Nodup
  fsNodup : fs.Nodup
  pos : ∀ i v, vs[i]? = some v → c.pos i = m.pos v
  range : ∀ f ∈ fs, f < polys.length
  faces : ∀ i f, fs[i]? = some f → ((c.verticesAroundFace i).map (fun x => vs[x]?)) ~r ((corners m polys f).map some)
  used : ∀ v, v ∈ vs ↔ ∃ f ∈ fs, v ∈ corners m polys f
  edges : ∀ h, LiveH c h → (∃ f, LiveF c f ∧ h ∈ c.fh f) ∨ ∃ f, LiveF c f ∧ opposite h ∈ c.fh f
  single : ∀ h h', LiveH c h → LiveH c h' → c.target (opposite h) = c.target (opposite h') → c.target h = c.target h' → h = h'

/-- Spec: a set of polygons is on one side, on both, or unknown. -/
def sideOf (a : Args) (fs : List Nat) : Option Loc :=
  if (∃ f ∈ fs, f ∈ a.below) ∧ (∃ f ∈ fs, f ∈ a.above) then some .undefined
  else if ∃ f ∈ fs, f ∈ a.below then some .below
  else if ∃ f ∈ fs, f ∈ a.above then some .above
  else none

/-- Spec: the fragments that the caller asked for; pieces that touch no marked polygon (seams) are always wanted. -/
def Wanted (a : Args) (fs : List Nat) : Prop :=
  match sideOf a fs with
  | none => True
  | some .above => a.keep.above = true
  | some .below => a.keep.below = true
  | some .undefined => a.keep.partly = true

/-- Spec: what is appended when a component has been stored before: nothing, if the last stored component has as many faces; otherwise the new one. -/
def Appended (old new res : List (Mesh P × Info)) : Prop :=
  ((∃ c x, old.getLast? = some c ∧ x ∈ new ∧ c.1.numFaces = x.1.numFaces) → res = old) ∧
  (¬(∃ c x, old.getLast? = some c ∧ x ∈ new ∧ c.1.numFaces = x.1.numFaces) → res = old ++ new)

end Mcut.Extract
