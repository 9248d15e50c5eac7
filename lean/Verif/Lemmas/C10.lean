import Verif.Lemmas.ApiLog
import Verif.Spec.C10

/-! Helper lemmas for `Props/C10.lean`. -/
namespace Mcut.Api

theorem start_tr {s s' : St} (st : Step s s') {c t h : Nat} (hn : Obs.start c t h ∈ s'.log) (ho : Obs.start c t h ∉ s.log) :
    ∃ k, s.mgr c t = .lookup k [] ∧ k.ev = h := by
  obtain ⟨⟨i, i2, hi⟩, al', hub, tr, ln, lu⟩ := id st
  cases tr with
  | start c t k hn' hp hd ha =>
    simp [obs, ho] at hn; obtain ⟨rfl, rfl, rfl⟩ := hn; exact ⟨k, hp, rfl⟩
  | startDead c t k hn' hp hd ha =>
    simp [obs, ho] at hn; obtain ⟨rfl, rfl, rfl⟩ := hn; exact ⟨k, hp, rfl⟩
  | createCtx j ooo hp => exact absurd hn ho
  | _ => exfalso; simp [dropTask, pushed, obs, ho] at hn

theorem passed_gate {s : St} (i : Inv s) {w : Nat} (h : passed (s.loc w) = true) :
    EndedWith s w 0 ∨ Skipped s w ∨ Signalled s w := by
  have hf := i.fields w
  simp only [core] at hf
  cases hl : s.loc w with
  | over c t r =>
    rw [hl] at h; simp [passed] at h; subst h
    exact Or.inl ⟨c, t, obs_mem i (by rw [hl]; simp [obsOf])⟩
  | skipped c t => exact Or.inr (Or.inl ⟨c, t, obs_mem i (by rw [hl]; simp [obsOf])⟩)
  | _ =>
    rw [hl] at h hf
    simp [passed] at h <;> simp [expect] at hf <;> right <;> right <;> refine ⟨hf.1, ?_⟩ <;> rw [hf.2.1] <;> (try split) <;> simp

theorem todo_loc {s : St} (i : Inv s) {c t : Nat} {k : Task} {todo : List Nat} (h : mTodo (s.mgr c t) = some (k, todo)) :
    s.loc k.ev = .pre c t := by
  apply i.pcs (.mg c t)
  simp only [expA]
  cases hm : s.mgr c t <;> rw [hm] at h <;> simp [mTodo] at h <;> obtain ⟨rfl, _⟩ := h <;> rfl

end Mcut.Api
