import Verif.Lemmas.ApiCtx
import Verif.Spec.C14

/-! Helper lemmas for `Props/C14.lean`. -/
namespace Mcut.Api

theorem start_phase {s s' : St} (st : Step s s') {c t h : Nat} (e : s'.log = .start c t h :: s.log) : s.loc h = .pre c t ∧ s'.loc h = .running c t := by
  have i := st.all'.i
  have hn := mem_obs i (o := .start c t h) (by rw [e]; simp)
  have ho : Obs.start c t h ∉ obsOf h (s.loc h) := by
    intro hm
    have h2 := i.hist h
    rw [e, List.filter_cons] at h2
    rw [if_pos (by simp [Obs.subj]), st.all.i.hist h] at h2
    generalize s.loc h = l at h2 hm
    generalize s'.loc h = l' at h2
    cases l <;> simp [obsOf] at hm <;> cases l' <;> simp [obsOf] at h2
  simp only [Obs.subj] at hn
  rcases st.ln h with l | l
  · rw [l] at hn; exact absurd hn ho
  · generalize s.loc h = l0 at l ho
    generalize s'.loc h = l1 at l hn
    cases l <;> simp_all [obsOf]

theorem gone_done {s : St} (i : Inv s) {c t h : Nat} (g : gone c t (s.loc h)) : DoneIn s.log h := by
  rcases g with g | ⟨r, g⟩
  · exact Or.inr ⟨c, t, obs_mem i (h := h) (by rw [g]; simp [obsOf])⟩
  · exact Or.inl ⟨c, t, r, obs_mem i (h := h) (by rw [g]; simp [obsOf])⟩

theorem nq_keeps {s s' : St} (hr : Reachable s) (h' : Reach step s s') {c : Nat} (hc : 0 < s.nq c) : s'.nq c = s.nq c := by
  have : (0 < s.nq c → c ∈ s.issued) → (0 < s.nq c → c ∈ s'.issued ∧ s'.nq c = s.nq c) := by
    intro h0
    refine reach_rel (R := fun s s' => c ∈ s.issued → c ∈ s'.issued ∧ s'.nq c = s.nq c) ?_ ?_ ?_ hr h' |> fun f h => f (h0 h)
    · intro s hs; exact ⟨hs, rfl⟩
    · intro s t u _ _ h1 h2 hs; exact ⟨(h2 (h1 hs).1).1, (h2 (h1 hs).1).2.trans (h1 hs).2⟩
    · intro s s' st hs; exact ⟨step_issued st hs, step_nq st hs⟩
  exact (this ((nqinv hr).iss c) hc).2

/-- A context created without MC_OUT_OF_ORDER_EXEC_MODE_ENABLE uses one queue for ever. -/
theorem in_order_one_queue {s0 s1 s : St} {i c : Nat} (h0 : Reachable s0) (hs : step s0 (.createCtx i false) = some s1)
    (hc : s1.rets.head? = some (i, .createContext c, NO_ERROR)) (h1 : Reach step s1 s) {t h : Nat} (hl : Obs.submit c t h ∈ s.log) : t = 0 := by
  have h : s1.nq c = 1 := by
    simp only [step] at hs
    split at hs <;> [simp at hs; skip]
    split at hs <;> simp only [Option.some.injEq, reduceCtorEq] at hs
    subst hs
    simp [createCtx, ret] at hc ⊢
    subst hc; exact upd_same _ _ _
  have hr1 := one_step h0 hs
  have := (tinv (hr1.trans h1) _ _ _ hl).2
  rw [nq_keeps hr1 h1 (by omega), h] at this
  omega

end Mcut.Api
