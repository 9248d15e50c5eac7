import Verif.Model.Hmesh

/-!
Specification notions for the halfedge mesh: live elements, the edit operations with their preconditions, consistency in terms of the mesh queries.
-/
namespace Mcut.Hmesh
variable {P : Type}

/-- Spec: element `i` of an array of `size` elements is live (not marked as removed). -/
def Live (size : Nat) (removed : List Nat) (i : Nat) : Prop := i < size ∧ i ∉ removed

/-- Spec: live vertex. -/
def LiveV (m : Mesh P) (v : Nat) : Prop := Live m.nV m.vRem v
/-- Spec: live edge. -/
def LiveE (m : Mesh P) (e : Nat) : Prop := Live m.nE m.eRem e
/-- Spec: live halfedge. -/
def LiveH (m : Mesh P) (h : Nat) : Prop := Live m.nH m.hRem h
/-- Spec: live face. -/
def LiveF (m : Mesh P) (f : Nat) : Prop := Live m.nF m.fRem f

/-- Spec: the edit operations of the mesh. -/
inductive Op (P : Type)
  | addVertex (p : P)
  | addEdge (v0 v1 : Nat)
  | addFace (vi : List Nat)
  | removeFace (f : Nat)
  | removeEdge (e : Nat)
  | removeVertex (v : Nat)

/-- Spec: executing an operation. -/
def Op.run (m : Mesh P) : Op P → Mesh P
  | .addVertex p => (m.addVertex p).1
  | .addEdge v0 v1 => (m.addEdge v0 v1).1
  | .addFace vi => (m.addFace vi).1
  | .removeFace f => m.removeFace f
  | .removeEdge e => m.removeEdge e
  | .removeVertex v => m.removeVertex v

/-- Spec: the arguments of a face insertion: at least three vertices, all live, consecutive ones (cyclically) different. -/
def GoodPolygon (m : Mesh P) (vi : List Nat) : Prop :=
  3 ≤ vi.length ∧ (∀ v ∈ vi, LiveV m v) ∧ ∀ i, i < vi.length → vi[i]? ≠ vi[(i + 1) % vi.length]?

/-- Spec: the preconditions of the operations (the assertions of the code; for face insertion also that it is accepted). -/
def Op.Legal (m : Mesh P) : Op P → Prop
  | .addVertex _ => True
  | .addEdge v0 v1 => LiveV m v0 ∧ LiveV m v1 ∧ v0 ≠ v1
  | .addFace vi => GoodPolygon m vi ∧ (m.addFace vi).2 ≠ none
  | .removeFace f => LiveF m f
  | .removeEdge e => LiveE m e ∧ m.face (halfedgeOf e 0) = none ∧ m.face (halfedgeOf e 1) = none
  | .removeVertex v => LiveV m v ∧ ∀ h, LiveH m h → m.target h ≠ v

/-- Spec: meshes that arise from the empty mesh by a history of legal operations. -/
inductive Reachable (d : P) : Mesh P → Prop
  | empty : Reachable d (Mesh.empty d)
  | step (m : Mesh P) (op : Op P) : Reachable d m → op.Legal m → Reachable d (op.run m)

/-- Spec: consistency of the connectivity in terms of the mesh queries. -/
structure Consistent (m : Mesh P) : Prop where
  /-- opposite halfedges pair up, belong to the same live edge and swap source and target, which are distinct live vertices -/
  opp : ∀ h, LiveH m h → LiveH m (opposite h) ∧ opposite (opposite h) = h ∧ opposite h ≠ h ∧ LiveE m (edgeOf h) ∧
    edgeOf (opposite h) = edgeOf h ∧ m.source h = some (m.target (opposite h)) ∧ LiveV m (m.target h) ∧ m.source h ≠ some (m.target h)
  /-- the halfedges listed around a face belong to it, without repetition, and are live -/
  face_list : ∀ f, LiveF m f → 3 ≤ (m.fh f).length ∧ (m.fh f).Nodup ∧ ∀ h ∈ m.fh f, LiveH m h ∧ m.face h = some f
  /-- a halfedge belongs to at most one face (the one that lists it), and its successor and predecessor chain up in the same face -/
  chain : ∀ h f, LiveH m h → m.face h = some f → LiveF m f ∧ h ∈ m.fh f ∧
    (∃ n, m.next h = some n ∧ m.prev n = some h ∧ LiveH m n ∧ m.face n = some f ∧ m.source n = some (m.target h)) ∧
    (∃ p, m.prev h = some p ∧ m.next p = some h ∧ LiveH m p ∧ m.face p = some f ∧ m.source h = some (m.target p))
  /-- a halfedge without a face has neither successor nor predecessor -/
  border : ∀ h, LiveH m h → m.face h = none → m.next h = none ∧ m.prev h = none
  /-- the halfedges listed at a vertex are exactly the live halfedges pointing to it, each once -/
  incidence : ∀ v h, (m.vh v).Nodup ∧ (h ∈ m.vh v ↔ LiveH m h ∧ m.target h = v)

end Mcut.Hmesh
