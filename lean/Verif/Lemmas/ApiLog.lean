import Verif.Lemmas.ApiRets
/-! The command history of the API model, in order. -/
namespace Mcut.Api

/-- One step adds at most one observation of a command. -/
theorem step_log {s s' : St} (st : Step s s') : s'.log = s.log ∨ ∃ o, s'.log = o :: s.log := by
  obtain ⟨⟨i, i2, hi⟩, al', hub, tr, ln, lu⟩ := id st
  cases tr with
  | createCtx j ooo hp => exact Or.inl rfl
  | enqueueRet j c h ws t ot seen hp hr ht hlt => right; exact ⟨.submit c t h, by simp [pushed, obs]⟩
  | enqueueBlk j c h ws t ot seen hp hr ht hlt => right; exact ⟨.submit c t h, by simp [pushed, obs]⟩
  | _ =>
    first
      | (left; simp; done)
      | (right; exact ⟨_, by simp [dropTask, obs]; rfl⟩)

/-- Every position of the history is where some step of the execution put it. -/
theorem log_split {s : St} (hr : Reachable s) (a b : List Obs) (o : Obs) (h : s.log = a ++ o :: b) :
    ∃ s0 s1, Reachable s0 ∧ Step s0 s1 ∧ s0.log = b ∧ s1.log = o :: b ∧ Reach step s1 s := by
  have one : ∀ {s s' : St} {x : Act}, step s x = some s' → Reach step s s' := by
    intro s s' x hx; exact ⟨[x], by simp [runSched, hx]⟩
  have tr : ∀ {s t u : St}, Reach step s t → Reach step t u → Reach step s u := by
    rintro s t u ⟨x, hx⟩ ⟨y, hy⟩; exact ⟨x ++ y, by rw [runSched_append, hx]; exact hy⟩
  have key : Reachable s ∧ ∀ a b o, s.log = a ++ o :: b →
      ∃ s0 s1, Reachable s0 ∧ Step s0 s1 ∧ s0.log = b ∧ s1.log = o :: b ∧ Reach step s1 s := by
    refine Reach.inv (P := fun s => Reachable s ∧ ∀ a b o, s.log = a ++ o :: b →
      ∃ s0 s1, Reachable s0 ∧ Step s0 s1 ∧ s0.log = b ∧ s1.log = o :: b ∧ Reach step s1 s) ?_ ?_ hr
    · rintro s x s' ⟨hr, ih⟩ hst
      refine ⟨hr.trans (one hst), ?_⟩
      intro a b o hl
      have st := step_of (all_of hr) hst
      rcases step_log st with e | ⟨o', e⟩
      · rw [e] at hl
        obtain ⟨s0, s1, h1, h2, h3, h4, h5⟩ := ih a b o hl
        exact ⟨s0, s1, h1, h2, h3, h4, tr h5 (one hst)⟩
      · rw [e] at hl
        cases a with
        | nil =>
          simp at hl
          obtain ⟨rfl, rfl⟩ := hl
          exact ⟨s, s', hr, st, rfl, e, ⟨[], rfl⟩⟩
        | cons y a =>
          simp at hl
          obtain ⟨s0, s1, h1, h2, h3, h4, h5⟩ := ih a b o hl.2
          exact ⟨s0, s1, h1, h2, h3, h4, tr h5 (one hst)⟩
    · exact ⟨⟨[], rfl⟩, by simp [init]⟩
  exact key.2 a b o h

theorem obs_mem {s : St} (i : Inv s) {h : Nat} {o : Obs} (hh : o ∈ obsOf h (s.loc h)) : o ∈ s.log := by
  rw [← i.hist h] at hh; exact (List.mem_filter.1 hh).1

theorem mem_obs {s : St} (i : Inv s) {o : Obs} (hh : o ∈ s.log) : o ∈ obsOf o.subj (s.loc o.subj) := by
  rw [← i.hist]; exact List.mem_filter.2 ⟨hh, by simp⟩

theorem reach_waits {s s' : St} (hr : Reachable s) (he : Reach step s s') (h : Nat) (hb : s.loc h ≠ .unborn) :
    s'.waits h = s.waits h := by
  have : s.loc h ≠ .unborn → s'.loc h ≠ .unborn ∧ s'.waits h = s.waits h := by
    refine reach_rel (R := fun s s' => s.loc h ≠ .unborn → s'.loc h ≠ .unborn ∧ s'.waits h = s.waits h) ?_ ?_ ?_ hr he
    · intro s hs; exact ⟨hs, rfl⟩
    · intro s t u _ _ h1 h2 hs
      have a := h1 hs; have b := h2 a.1
      exact ⟨b.1, b.2.trans a.2⟩
    · intro s s' st hs
      refine ⟨?_, step_waits st h hs⟩
      rcases st.ln h with l | l
      · rw [l]; exact hs
      · exact l.ne_unborn
  exact (this hb).2

theorem start_loc {s : St} (i : Inv s) {c t h : Nat} (hh : Obs.start c t h ∈ s.log) : started (s.loc h) = true := by
  have := mem_obs i hh
  simp only [Obs.subj] at this
  generalize s.loc h = l at this ⊢
  cases l <;> simp [obsOf] at this <;> rfl

theorem stop_loc {s : St} (i : Inv s) {c t h : Nat} {r : Int} (hh : Obs.stop c t h r ∈ s.log) :
    s.loc h = .ran c t r ∨ s.loc h = .fin1 c t r ∨ s.loc h = .fin2 c t r ∨ s.loc h = .fin3 c t r ∨ s.loc h = .fin4 c t r ∨ s.loc h = .over c t r := by
  have := mem_obs i hh
  simp only [Obs.subj] at this
  generalize s.loc h = l at this ⊢
  cases l <;> simp [obsOf] at this <;> simp [this]

theorem skip_loc {s : St} (i : Inv s) {c t h : Nat} (hh : Obs.skip c t h ∈ s.log) :
    s.loc h = .skipping c t ∨ s.loc h = .skipped c t := by
  have := mem_obs i hh
  simp only [Obs.subj] at this
  generalize s.loc h = l at this ⊢
  cases l <;> simp [obsOf] at this <;> simp [this]

end Mcut.Api
