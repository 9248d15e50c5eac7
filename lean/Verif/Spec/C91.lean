import Verif.Spec.C89
import Verif.Model.CdtTies

/-! # Specification for C91: corners at the same place -/
namespace Mcut.Cdt

/-- `mapping` and `duplicates` describe which points of `pts` are the same. -/
structure Ties {V : Type} (pts : List V) (mapping duplicates : List Nat) : Prop where
  length : mapping.length = pts.length
  /-- Two points have the same number if and only if they are the same. -/
  same : ∀ i j, i < pts.length → j < pts.length → (mapping[i]? = mapping[j]? ↔ pts[i]? = pts[j]?)
  /-- The duplicates are the points that have been there before, … -/
  dups : ∀ k, k ∈ duplicates ↔ k < pts.length ∧ ∃ j < k, pts[j]? = pts[k]?
  /-- … in ascending order. -/
  sorted : duplicates.Pairwise (· < ·)
  /-- The others are numbered in their order, without gaps. -/
  number : ∀ k, k < pts.length → k ∉ duplicates → mapping[k]? = some (k - (duplicates.filter (· < k)).length)

/-- Point `j` is the first one at the place of point `k`. -/
def FirstAt {V : Type} (pts : List V) (k j : Nat) : Prop := j < k ∧ pts[j]? = pts[k]? ∧ ∀ j' < j, pts[j']? ≠ pts[k]?

end Mcut.Cdt
