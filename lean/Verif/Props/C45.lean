import Verif.Lemmas.C45

/-! C45: blocking calls equal enqueue, wait and release. -/
namespace Mcut.Api

/-- A blocking call that created a command returns the command's own result: the command was executed to its end and
ended with exactly the value returned, as long as the context has not been released. -/
theorem C45_own_result_partial (s : St) (hr : Reachable s) (i c h : Nat) (r : Int) (hc : (i, Call.blocking c h, r) ∈ s.rets)
    (h0 : h ≠ 0) (hctx : c ∈ s.ctxs) : ∃ t, Obs.stop c t h r ∈ s.log := by
  have i0 := (all_of hr).i
  rcases (rinv hr).rets _ hc with ⟨h1, -⟩ | ⟨hs, -, -⟩
  · exact absurd h1 h0
  · cases hl : s.loc h <;> rw [hl] at hs <;> simp [settled] at hs
    · obtain ⟨rfl, rfl⟩ := hs
      have hk := obs_mem i0 (h := h) (o := .skip _ _ h) (by rw [hl]; simp [obsOf]; exact ⟨rfl, rfl⟩)
      have hd := skip_done hr _ _ _ hk ((waits_of_blk hr).2.2 i _ h _ hc h0)
      exact absurd hctx (dinv hr _ hd).1
    · obtain ⟨rfl, rfl⟩ := hs
      exact ⟨_, obs_mem i0 (h := h) (by rw [hl]; simp [obsOf]; rfl)⟩

/-- If the context is released meanwhile the full claim is FALSE: the command is thrown away unexecuted and the call
returns MC_NO_ERROR. -/
theorem C45_release_race_fails : ∃ s i c h, Reachable s ∧ (i, Call.blocking c h, NO_ERROR) ∈ s.rets ∧ h ≠ 0 ∧
    (∀ t, Obs.start c t h ∉ s.log) ∧ ∃ t, Obs.skip c t h ∈ s.log := by
  have hex : ∃ s, runSched step init [.createCtx 0 false, .enqueue 0 0xDECAF [] true, .enqueue2 0 (fun _ => true),
      .releaseCtx 1 0xDECAF, .releaseCtx2 1, .pop 0xDECAF 0, .blocking 0, .blocking 0, .blocking 0] = some s ∧
      (0, Call.blocking 0xDECAF 0xDECB0, NO_ERROR) ∈ s.rets ∧ s.log = [.skip 0xDECAF 0 0xDECB0, .submit 0xDECAF 0 0xDECB0] := by
    refine ⟨_, rfl, ?_⟩
    decide +kernel
  obtain ⟨s, h1, h2, h3⟩ := hex
  exact ⟨s, 0, 0xDECAF, 0xDECB0, ⟨_, h1⟩, h2, by decide, by rw [h3]; simp, ⟨0, by rw [h3]; simp⟩⟩

/-- A blocking call leaves no event behind: the event it created is not in the table when it returns, nor ever after, and
its handle was never given to a client. -/
theorem C45_no_event_left (s : St) (hr : Reachable s) (i c h : Nat) (r : Int) (hc : (i, Call.blocking c h, r) ∈ s.rets) (h0 : h ≠ 0) :
    h ∉ s.evs := by
  rcases (rinv hr).rets _ hc with ⟨h1, -⟩ | ⟨-, h2, -⟩
  · exact absurd h1 h0
  · exact h2

/-- The wait and the release inside a blocking call always find the event (they are not inside a `try`: an exception
would end the program). -/
theorem C45_wait_and_release_succeed (s s' : St) (hr : Reachable s) (i : Nat) (hs : step s (.blocking i) = some s') : s'.ub = false := by
  have hub : s.ub = false := by
    cases hu : s.ub with
    | false => rfl
    | true => simp [step, hu] at hs
  have m := rinv hr
  simp only [step, hub, Bool.false_eq_true, if_false, blockStep] at hs
  split at hs
  · rename_i c h hp
    rw [if_pos (m.blk i c h (by rw [hp]; rfl)).2.1] at hs; simp at hs; subst hs; simpa using hub
  · split at hs <;> simp at hs; subst hs; simpa using hub
  · rename_i c h r hp
    rw [if_pos (m.blk i c h (by rw [hp]; rfl)).2.1] at hs; simp at hs; subst hs; simpa using hub
  · simp at hs

/-- When a blocking call on an in-order context returns, every command enqueued to the context before its own is finished
with, and so is its own. -/
theorem C45_earlier_finished (s0 s1 s : St) (j i c h : Nat) (r : Int) (h0 : Reachable s0) (hc : step s0 (.createCtx j false) = some s1)
    (hret : s1.rets.head? = some (j, .createContext c, NO_ERROR)) (h1 : Reach step s1 s)
    (hb : (i, Call.blocking c h, r) ∈ s.rets) (hn : h ≠ 0) (hctx : c ∈ s.ctxs) :
    DoneIn s.log h ∧ ∀ t' u h', EnqueuedBefore s.log c t' h' u h → DoneIn s.log h' := by
  have hr := (one_step h0 hc).trans h1
  have i0 := (all_of hr).i
  obtain ⟨t, ht⟩ := C45_own_result_partial s hr i c h r hb hn hctx
  refine ⟨Or.inl ⟨c, t, r, ht⟩, ?_⟩
  have hst : Obs.start c t h ∈ s.log := by
    have := mem_obs i0 ht
    refine obs_mem i0 (h := h) ?_
    simp only [Obs.subj] at this
    generalize s.loc h = l at this ⊢
    cases l <;> simp [obsOf] at this ⊢ <;> exact ⟨this.1, this.2.1⟩
  obtain ⟨a, b, hab⟩ := List.append_of_mem hst
  intro t' u h' he
  have hd : EnqueuedBefore b c t' h' u h := by
    obtain ⟨s2, s3, hr2, st, e2, e3, -⟩ := log_split hr a b _ hab
    obtain ⟨x, y, hxy, hy⟩ := he
    have hp := (start_phase st (by rw [e2]; exact e3)).1
    have hin : Obs.submit c t h ∈ b := by
      rw [← e2]; exact obs_mem st.all.i (h := h) (by rw [hp]; simp [obsOf])
    have hsub : ∀ c' t', Obs.submit c' t' h ∈ s.log → c' = c ∧ t' = t := by
      intro c' t' hm
      have h1 := (place_log i0 h c' t').2 hm
      have h2 := (place_log i0 h c t).2 (by rw [hab]; simp [hin])
      rw [h1] at h2; simpa using h2
    have hu := (hsub c u (by rw [hxy]; simp)).2
    subst hu
    obtain ⟨x2, y2, hb2⟩ := List.append_of_mem hin
    have huniq := i0.hist h
    refine ⟨x2, y2, hb2, ?_⟩
    have e : y = y2 := by
      have heq : x ++ Obs.submit c u h :: y = (a ++ Obs.start c u h :: x2) ++ Obs.submit c u h :: y2 := by
        rw [← hxy, hab, hb2]; simp
      have cnt : s.log.count (Obs.submit c u h) ≤ 1 := by
        have h3 : s.log.count (Obs.submit c u h) = (s.log.filter (fun o => o.subj = h)).count (Obs.submit c u h) := by
          rw [List.count_filter (by simp [Obs.subj])]
        rw [h3, huniq]
        generalize s.loc h = l
        cases l <;> simp [obsOf, List.count_cons] <;> split <;> simp
      rw [hxy] at cnt
      have hx : Obs.submit c u h ∉ x := by
        intro hm
        rw [List.count_append, List.count_cons_self] at cnt
        have := List.count_pos_iff.2 hm; omega
      have hx2 : Obs.submit c u h ∉ a ++ Obs.start c u h :: x2 := by
        intro hm
        rw [heq, List.count_append, List.count_cons_self] at cnt
        have := List.count_pos_iff.2 hm; omega
      have : ∀ (A B X Y : List Obs) (o : Obs), o ∉ A → o ∉ B → A ++ o :: X = B ++ o :: Y → X = Y := by
        intro A
        induction A with
        | nil =>
          intro B X Y o _ hB e
          cases B with
          | nil => simpa using e
          | cons b B => simp at e hB; exact absurd e.1 hB.1
        | cons a A ih =>
          intro B X Y o hA hB e
          cases B with
          | nil => simp at e hA; exact absurd e.1.symm hA.1
          | cons b B => simp at e hA hB; exact ih B X Y o hA.2 hB.2 e.2
      exact this _ _ _ _ _ hx hx2 heq
    rw [← e]; exact hy
  rcases (C14_in_order_context s0 s1 s j c h0 hc hret h1 a b t h hab).1 t' u h' hd with ⟨a1, a2, a3, a4⟩ | ⟨a1, a2, a3⟩
  · exact Or.inl ⟨a1, a2, a3, by rw [hab]; simp [a4]⟩
  · exact Or.inr ⟨a1, a2, by rw [hab]; simp [a3]⟩

/-- A blocking call on an unknown context returns MC_INVALID_VALUE and changes nothing but the list of finished calls. -/
theorem C45_unknown_context (s : St) (i c : Nat) (hi : s.cl i = .idle) (hu : s.ub = false) (hc : c ∉ s.ctxs) :
    ∃ s', step s (.enqueue i c [] true) = some s' ∧ s'.rets = (i, .blocking c 0, INVALID_VALUE) :: s.rets ∧
      s'.evs = s.evs ∧ s'.ctxs = s.ctxs ∧ s'.log = s.log ∧ s'.queue = s.queue ∧ s'.counter = s.counter := by
  refine ⟨_, by simp [step, hu, hi, beginEnqueue, hc]; rfl, ?_⟩
  simp [ret]

/-- The hypotheses are met: a blocking call behind an earlier command, both executed in order; the result is the one of
its own command. -/
example :
    let fin : List Act := [.run 0xDECAF 0 0, .run 0xDECAF 0 0, .run 0xDECAF 0 0, .run 0xDECAF 0 0, .run 0xDECAF 0 0]
    let a : List Act := [.createCtx 0 false, .enqueue 0 0xDECAF [] false, .enqueue2 0 (fun _ => true), .enqueue 0 0xDECAF [] true, .enqueue2 0 (fun _ => true),
      .blocking 0, .pop 0xDECAF 0, .dep 0xDECAF 0, .run 0xDECAF 0 0] ++ fin ++
      [.pop 0xDECAF 0, .dep 0xDECAF 0, .run 0xDECAF 0 (-2)] ++ fin ++ [.blocking 0, .blocking 0]
    (runSched step init a).map (fun s => (s.log.reverse, s.rets.head?)) = some ([.submit 0xDECAF 0 0xDECB0, .submit 0xDECAF 0 0xDECB1,
      .start 0xDECAF 0 0xDECB0, .stop 0xDECAF 0 0xDECB0 0, .start 0xDECAF 0 0xDECB1, .stop 0xDECAF 0 0xDECB1 (-2)],
      some (0, .blocking 0xDECAF 0xDECB1, -2)) ∧
    (runSched step init a).map (fun s => (s.evs, s.ctxs)) = some ([0xDECB0], [0xDECAF]) := by
  decide +kernel

end Mcut.Api
