import Verif.Model.Patches
import Verif.Spec.C73

/-! Specification notions used in the statements of `Props/C79.lean`. The polygons before `smCount` are those of the source mesh, the others those of the cut mesh; the halfedges
below `numCut` are those of the cut edges. -/
namespace Mcut.Patches
open Mcut.Hmesh

/-- Spec: halfedge `x` belongs to polygon `i` of the cut mesh. -/
def InCut (polys : List (List Nat)) (smCount i x : Nat) : Prop := smCount ≤ i ∧ ∃ p, polys[i]? = some p ∧ x ∈ p

/-- Spec: polygons `i` and `j` of the cut mesh have a common edge, which is not a cut edge. -/
def Beside (polys : List (List Nat)) (smCount numCut i j : Nat) : Prop := ∃ x, InCut polys smCount i x ∧ InCut polys smCount j (opposite x) ∧ numCut ≤ x

/-- Spec: one can go from polygon `i` to `j` in the cut mesh, through edges, without crossing the cut. -/
def SamePatch (polys : List (List Nat)) (smCount numCut : Nat) : Nat → Nat → Prop := Relation.EqvGen (Beside polys smCount numCut)

/-- Spec: polygon `i` of the cut mesh has a cut edge. -/
def AtCut (polys : List (List Nat)) (smCount numCut i : Nat) : Prop := ∃ x, InCut polys smCount i x ∧ x < numCut

/-- Spec: `ps` are the patches: each is a list of polygons of the cut mesh, without repetitions, that contains with a polygon exactly those that can be reached without crossing the
cut; each has a polygon at the cut; no polygon is in two; and every polygon at the cut is in one. -/
structure PatchesOf (polys : List (List Nat)) (smCount numCut : Nat) (ps : List (List Nat)) : Prop where
  whole : ∀ l ∈ ps, l.Nodup ∧ (∀ i ∈ l, smCount ≤ i ∧ i < polys.length) ∧ ∀ i ∈ l, ∀ j, j ∈ l ↔ SamePatch polys smCount numCut i j
  cut : ∀ l ∈ ps, ∃ i ∈ l, AtCut polys smCount numCut i
  disjoint : ps.Pairwise List.Disjoint
  every : ∀ i, AtCut polys smCount numCut i → ∃ l ∈ ps, i ∈ l

/-- Spec: the table tells the patch of each polygon. -/
def TableOf (ps : List (List Nat)) (table : List (Nat × Nat)) : Prop := ∀ i k, patchOf table i = some k ↔ ∃ l, ps[k]? = some l ∧ i ∈ l

/-- Spec: the patches are begun at a polygon of theirs, at a halfedge of a cut edge. -/
def StartsOf (polys : List (List Nat)) (numCut : Nat) (ps : List (List Nat)) (starts : List (Nat × Nat)) : Prop :=
  List.Forall₂ (fun l x => x.1 ∈ l ∧ ∃ p y, polys[x.1]? = some p ∧ p[x.2]? = some y ∧ y < numCut) ps starts

end Mcut.Patches
