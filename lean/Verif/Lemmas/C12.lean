import Verif.Lemmas.C10
import Verif.Spec.C12

/-! Helper lemmas for `Props/C12.lean`. -/
namespace Mcut.Api

theorem failed_bad {s : St} (i : Inv s) {w : Nat} {q : Int} (h : failedWith q (s.loc w) = true) :
    EndedWith s w q ∨ ((s.ev w).user = true ∧ (s.ev w).rt = q) := by
  have hf := i.fields w
  simp only [core] at hf
  cases hl : s.loc w <;> rw [hl] at h hf <;> simp [failedWith] at h
  · subst h; exact Or.inl ⟨_, _, obs_mem i (by rw [hl]; simp [obsOf]; exact ⟨rfl, rfl⟩)⟩
  · simp [expect, h] at hf; exact Or.inr ⟨hf.1, hf.2.2.2.1⟩
  · simp [expect, h] at hf; exact Or.inr ⟨hf.1, hf.2.2.2.1⟩

end Mcut.Api
