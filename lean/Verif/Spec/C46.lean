import Verif.Model.Seam
import Verif.Spec.Hmesh
import Mathlib.Logic.Relation

/-! Specification notions used in the statements of `Props/C46.lean`. -/
namespace Mcut.Seam
open Hmesh
variable {P : Type}

/-- Spec: `u` and `v` are joined by an edge of the mesh. -/
def Nbr (m : Mesh P) (u v : Nat) : Prop := ∃ h, LiveH m h ∧ m.target h = v ∧ m.source h = some u

/-- Spec: the documented layout: the number of sequences, then for each of them its length, its loop flag and its vertices. -/
def encode (seqs : List (Bool × List Nat)) : List Nat :=
  seqs.length :: seqs.flatMap (fun q => q.2.length :: (if q.1 then 1 else 0) :: q.2)

/-- Spec: how many edges join `v` to vertices of `S`. -/
def degree (m : Mesh P) (S : List Nat) (v : Nat) : Nat :=
  (m.vh v).countP (fun h => decide (∃ s ∈ S, m.source h = some s))

/-- Spec: no vertex is without a neighbour in the set. -/
def NoIsolated (m : Mesh P) (S : List Nat) : Prop := ∀ v ∈ S, ∃ u ∈ S, Nbr m u v

/-- Spec: `S` with the edges between its vertices is a disjoint union of paths and cycles: every vertex has one or two edges to vertices of `S`, no
two of them to the same vertex. -/
def Linear (m : Mesh P) (S : List Nat) : Prop :=
  ∀ v ∈ S, (degree m S v = 1 ∨ degree m S v = 2) ∧
    ∀ h h' s, h ∈ m.vh v → h' ∈ m.vh v → s ∈ S → m.source h = some s → m.source h' = some s → h = h'

/-- Spec: `T` is a connected component of `S`. -/
structure Component (m : Mesh P) (S T : List Nat) : Prop where
  ne : T ≠ []
  sub : ∀ v ∈ T, v ∈ S
  closed : ∀ u ∈ T, ∀ v ∈ S, Nbr m u v → v ∈ T
  conn : ∀ u ∈ T, ∀ v ∈ T, Relation.ReflTransGen (fun a b => b ∈ S ∧ Nbr m a b) u v

/-- Spec: the sequences are the connected components of `S`, each vertex is listed once. -/
def Partitions (m : Mesh P) (S : List Nat) (seqs : List (Bool × List Nat)) : Prop :=
  (seqs.flatMap (·.2)).Nodup ∧ (∀ v, v ∈ seqs.flatMap (·.2) ↔ v ∈ S) ∧ ∀ q ∈ seqs, Component m S q.2

/-- Spec: one sequence is a walk along the seam: consecutive vertices are neighbours; it is flagged as a loop exactly if it has three or more
vertices and the last one is a neighbour of the first; otherwise first and last vertex are end points of the seam. -/
def Ordered (m : Mesh P) (S : List Nat) (q : Bool × List Nat) : Prop :=
  q.2.IsChain (Nbr m) ∧ ∀ (hne : q.2 ≠ []),
    (q.1 = true ↔ 3 ≤ q.2.length ∧ Nbr m (q.2.getLast hne) (q.2.head hne)) ∧
    (q.1 = false → degree m S (q.2.head hne) = 1 ∧ degree m S (q.2.getLast hne) = 1)

end Mcut.Seam
