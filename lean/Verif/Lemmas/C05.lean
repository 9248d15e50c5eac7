import Verif.Spec.C05

/-! Helper lemmas for `Props/C05.lean`. -/
namespace Mcut.Ctx

theorem fetchLoop_spec (bufSize : Nat) (fuel : Nat) (rest : List Msg) (off : Nat) (buf : List Byte)
    (ents : List (Word × Word × Word × Nat)) :
    ∃ k, k ≤ fuel ∧ k ≤ rest.length ∧
      fetchLoop bufSize fuel rest off buf ents =
        (buf ++ (rest.take k).flatMap (fun m => m.str), ents ++ (rest.take k).map entry) ∧
      (off ≤ bufSize → off + totalLen (rest.take k) ≤ bufSize) ∧
      (k < fuel → k < rest.length → off + totalLen (rest.take (k + 1)) > bufSize) := by
  induction fuel generalizing rest off buf ents with
  | zero => exact ⟨0, by omega, by omega, by simp [fetchLoop], by simp [totalLen], by omega⟩
  | succ fuel ih =>
    cases rest with
    | nil => exact ⟨0, by omega, by simp, by simp [fetchLoop], by simp [totalLen], by simp⟩
    | cons m rest =>
      by_cases h : off + m.str.length > bufSize
      · exact ⟨0, by omega, by simp, by simp [fetchLoop, h], by simp [totalLen],
          by intro _ _; simp [totalLen]; omega⟩
      · obtain ⟨k, h1, h2, h3, h4, h5⟩ := ih rest (off + m.str.length) (buf ++ m.str) (ents ++ [entry m])
        refine ⟨k + 1, by omega, by simp; omega, ?_, ?_, ?_⟩
        · simp only [fetchLoop, h, if_false]
          show fetchLoop bufSize fuel rest _ _ (ents ++ [entry m]) = _
          rw [h3]; simp [List.append_assoc]
        · intro _
          have := h4 (by omega)
          simp [totalLen] at this ⊢; omega
        · intro hk hl
          have := h5 (by omega) (by simp at hl; omega)
          simp [totalLen] at this ⊢; omega

end Mcut.Ctx
