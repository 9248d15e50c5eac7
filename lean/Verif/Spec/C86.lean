import Mathlib.Logic.Relation
import Verif.Spec.C85
import Verif.Model.CdtErase

/-! # Specification for C86: erasing what is outside of the fixed edges -/
namespace Mcut.Cdt
open Mcut.Geom
variable {K : Type} [Field K] [LinearOrder K]

/-- Triangle `k'` is across a side of `k` that is not fixed. -/
def Open (fixed : List (Nat × Nat)) (ts : List Tri) (k k' : Nat) : Prop := ∃ (t : Tri) (i : Fin 3), ts[k]? = some t ∧ t.n i = some k' ∧ edge (t.v i) (t.v (i + 1)) ∉ fixed

/-- A triangle that can be reached from a corner of the super-triangle without crossing a fixed edge. -/
def Outside (fixed : List (Nat × Nat)) (ts : List Tri) (k : Nat) : Prop :=
  ∃ (k0 : Nat) (t : Tri) (i : Fin 3), ts[k0]? = some t ∧ t.v i < 3 ∧ Relation.ReflTransGen (Open fixed ts) k0 k

/-- Fixed edges are between vertices that are not corners of the super-triangle. -/
def FixedEdges (N : Nat) (fixed : List (Nat × Nat)) : Prop := ∀ e ∈ fixed, 3 ≤ e.1 ∧ e.1 < e.2 ∧ e.2 < N

/-- The result of erasing the outside: `old` has the earlier numbers of the triangles. -/
structure Erased (pos : Nat → V2 K) (N : Nat) (fixed : List (Nat × Nat)) (s : St) (old : List Nat) (d : Done) : Prop where
  /-- The triangles that are not outside, in their order. -/
  order : old.Pairwise (· < ·)
  kept : ∀ k, k ∈ old ↔ k < s.tris.length ∧ ¬Outside fixed s.tris k
  len : d.tris.length = old.length
  /-- The vertices have the numbers without the super-triangle. -/
  corners : ∀ (j k : Nat) (t u : Tri), old[j]? = some k → s.tris[k]? = some t → d.tris[j]? = some u → ∀ i, t.v i = u.v i + 3
  /-- The neighbours are the earlier neighbours, if these are kept. -/
  across : ∀ (j k : Nat) (t u : Tri), old[j]? = some k → s.tris[k]? = some t → d.tris[j]? = some u →
    ∀ i, (∀ j', u.n i = some j' ↔ ∃ k', old[j']? = some k' ∧ t.n i = some k') ∧ (u.n i = none ↔ ∀ k' ∈ old, t.n i ≠ some k')
  /-- The fixed edges have the new numbers. -/
  fixed_edges : ∀ a b, edge a b ∈ d.fixed ↔ edge (a + 3) (b + 3) ∈ fixed
  /-- What is left has only fixed edges around it. -/
  border : ∀ (j : Nat) (u : Tri) (i : Fin 3), d.tris[j]? = some u → u.n i = none → edge (u.v i) (u.v (i + 1)) ∈ d.fixed
  /-- The triangles are counter-clockwise, with the corners among the `N - 3` vertices. -/
  ccw : ∀ u ∈ d.tris, 0 < orient2d (u.at (fun v => pos (v + 3)) 0) (u.at (fun v => pos (v + 3)) 1) (u.at (fun v => pos (v + 3)) 2)
  vertices : ∀ u ∈ d.tris, ∀ i, u.v i < N - 3
  /-- The neighbours are mutual. -/
  neighbours : ∀ (j j' : Nat) (u : Tri) (i : Fin 3), d.tris[j]? = some u → u.n i = some j' →
    ∃ (u' : Tri) (l : Fin 3), d.tris[j']? = some u' ∧ u'.n l = some j ∧ u'.v l = u.v (i + 1) ∧ u'.v (l + 1) = u.v i

end Mcut.Cdt
