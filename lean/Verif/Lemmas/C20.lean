import Verif.Spec.C20

/-! Helper lemmas for `Props/C20.lean`. -/
namespace Mcut.CC

theorem fill_foldl (mask n : Nat) (ccs : List (Nat × Nat)) (out : List Nat) (h : out.length ≤ n) :
    ccs.foldl (fun out c => if c.2 &&& mask ≠ 0 then if out.length = n then out else out ++ [c.1] else out) out =
      out ++ ((matching ccs mask).map (·.1)).take (n - out.length) := by
  induction ccs generalizing out with
  | nil => simp [matching]
  | cons c cs ih =>
    simp only [List.foldl_cons]
    by_cases hc : c.2 &&& mask ≠ 0
    · rw [if_pos hc]
      have hm : matching (c :: cs) mask = c :: matching cs mask := by simp [matching, List.filter_cons, hc]
      rw [hm]
      by_cases hn : out.length = n
      · rw [if_pos hn, ih out h]; simp [hn]
      · rw [if_neg hn, ih _ (by simp; omega)]
        have : n - out.length = (n - (out ++ [c.1]).length) + 1 := by simp; omega
        rw [this]; simp
    · rw [if_neg hc, ih out h]
      simp [matching, List.filter_cons, hc]

theorem count_foldl (mask : Nat) (ccs : List (Nat × Nat)) (k : Nat) :
    ccs.foldl (fun n c => if c.2 &&& mask ≠ 0 then n + 1 else n) k = k + (matching ccs mask).length := by
  induction ccs generalizing k with
  | nil => simp [matching]
  | cons c cs ih =>
    simp only [List.foldl_cons]
    by_cases hc : c.2 &&& mask ≠ 0
    · rw [if_pos hc, ih]; simp [matching, List.filter_cons, hc]; omega
    · rw [if_neg hc, ih]; simp [matching, List.filter_cons, hc]

end Mcut.CC
