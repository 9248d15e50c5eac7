/-!
# Specification for C28: what a release call is asked to do
-/
namespace Mcut.Release

/-- The first `k` handles of a client array. -/
def named (p : Nat → Nat) (k : Nat) : List Nat := (List.range k).map p

/-- All named objects exist, and none is named twice. -/
def Releasable (table hs : List Nat) : Prop := hs.Nodup ∧ ∀ h ∈ hs, h ∈ table

/-- A table without the named objects; the order of the others is kept. -/
def without (table hs : List Nat) : List Nat := table.filter (fun x => decide (x ∉ hs))

/-- What a release loop over `n` handles does to a table: it removes the first `k` named objects and stops with an error at the first one that
is unknown, if any. The result `r` is MC_NO_ERROR (0) or MC_INVALID_VALUE (-4). -/
structure Outcome (table : List Nat) (p : Nat → Nat) (n k : Nat) (r : Int) : Prop where
  le : k ≤ n
  released : Releasable table (named p k)
  ok_iff : r = (0 : Int) ↔ Releasable table (named p n)
  all : r = (0 : Int) → k = n
  error : r ≠ (0 : Int) → r = (-4 : Int) ∧ k < n ∧ (p k ∉ table ∨ p k ∈ named p k)

end Mcut.Release
