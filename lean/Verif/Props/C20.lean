import Verif.Lemmas.C20

/-! # C20: mcGetConnectedComponents enumerates exactly the matching components -/
namespace Mcut.CC

/-- The count query returns the number of matching components and writes no entries. -/
theorem C20_count (ccs : List (Nat × Nat)) (mask n : Nat) :
    getComponents ccs mask n false = ((matching ccs mask).length, []) := by
  simp only [getComponents, Bool.false_eq_true, if_false]
  rw [count_foldl]; simp

/-- A fill call writes the handles of the first `numEntries` matching components, in list order (newest first), and
nothing else; it leaves 0 in `*numConnComps`. -/
theorem C20_fill (ccs : List (Nat × Nat)) (mask n : Nat) :
    getComponents ccs mask n true = (0, ((matching ccs mask).map (·.1)).take n) := by
  simp only [getComponents, if_true]
  rw [fill_foldl mask n ccs [] (by simp)]; simp

/-- A fill call never writes more than `numEntries` entries, and with the queried count it returns every matching
component exactly once. -/
theorem C20_complete (ccs : List (Nat × Nat)) (mask : Nat) :
    (∀ n, (getComponents ccs mask n true).2.length ≤ n) ∧
    (getComponents ccs mask (getComponents ccs mask 0 false).1 true).2 = (matching ccs mask).map (·.1) := by
  constructor
  · intro n; rw [C20_fill]; simp; omega
  · rw [C20_count, C20_fill, List.take_of_length_le (by simp)]

-- two of three components match
example : matching [(7, FRAGMENT), (8, SEAM), (9, PATCH)] (FRAGMENT ||| PATCH) = [(7, FRAGMENT), (9, PATCH)] ∧
    getComponents [(7, FRAGMENT), (8, SEAM), (9, PATCH)] (FRAGMENT ||| PATCH) 1 true = (0, [7]) := by decide

end Mcut.CC
