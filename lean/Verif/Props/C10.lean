import Verif.Lemmas.C10

/-! C10: wait lists gate execution. -/
namespace Mcut.Api

/-- At the step that begins the work of a command, every event of its wait list has finished: it ended with MC_NO_ERROR,
or it is a command that was itself given up, or a user event whose status was set. The full claim wants the first
alternative for commands and a successful status for user events; see `C10_skipped_dependency_fails` and
`C10_user_event_race_fails`. -/
theorem C10_start_gated_partial (s s' : St) (a : Act) (hr : Reachable s) (hs : step s a = some s') (c t h : Nat)
    (hn : Obs.start c t h ∈ s'.log) (ho : Obs.start c t h ∉ s.log) :
    ∀ w ∈ s.waits h, EndedWith s w 0 ∨ Skipped s w ∨ Signalled s w := by
  have st := step_of (all_of hr) hs
  obtain ⟨k, hk, rfl⟩ := start_tr st hn ho
  obtain ⟨p, hp, hw⟩ := (minv hr).todo c t k [] (by rw [hk]; rfl)
  intro w hm
  rw [hp, List.append_nil] at hm
  exact passed_gate st.all.i (hw w hm)

/-- A command whose wait list has a command that ended with an error is never executed. -/
theorem C10_failed_command_blocks (s : St) (hr : Reachable s) (h w : Nat) (r : Int) (hw : w ∈ s.waits h)
    (he : EndedWith s w r) (h0 : r ≠ 0) : ¬ Began s h := by
  rintro ⟨c, t, hb⟩
  have i := (all_of hr).i
  have hp := (minv hr).st h (start_loc i hb) w hw
  obtain ⟨c', t', he⟩ := he
  rcases stop_loc i he with e | e | e | e | e | e <;> rw [e] at hp <;> simp [passed] at hp
  exact h0 hp

/-- A command is not executed as long as a command of its wait list is unfinished. -/
theorem C10_unfinished_command_blocks (s : St) (hr : Reachable s) (h w c t : Nat) (hw : w ∈ s.waits h)
    (hq : Obs.submit c t w ∈ s.log) (hn : ∀ r, ¬ EndedWith s w r) (hk : ¬ Skipped s w) : ¬ Began s h := by
  rintro ⟨c', t', hb⟩
  have i := (all_of hr).i
  rcases passed_gate i ((minv hr).st h (start_loc i hb) w hw) with e | e | e
  · exact hn 0 e
  · exact hk e
  · have h1 := mem_obs i hq
    have hf := i.fields w
    simp only [core] at hf
    simp only [Obs.subj] at h1
    have hu := e.1
    cases hl : s.loc w <;> rw [hl] at h1 hf <;> simp [obsOf, expect, hu] at h1 hf

/-- A user event whose status was set to an error code before a command that lists it was enqueued: that command is
never executed. -/
theorem C10_user_error_blocks (s s' : St) (hr : Reachable s) (he : Reach step s s') (i h w : Nat) (code : Int)
    (hc : (i, Call.setUserEventStatus w code, NO_ERROR) ∈ s.rets) (h4 : code ≠ 4) (hb : s.counter ≤ h)
    (hw : w ∈ s'.waits h) : ¬ Began s' h := by
  have hq : ∃ q, s.loc w = .uOver q ∧ q ≠ 0 := by
    have := (rinv hr).rets _ hc
    simp only [RetOk] at this
    rcases this with ⟨_, q, hq, _, hq'⟩ | h1 | ⟨h1, _⟩
    · refine ⟨q, hq, ?_⟩
      rintro rfl; exact h4 (by simpa using hq')
    · exact absurd h1 (by decide)
    · exact absurd h1 (by decide)
  obtain ⟨q, hl, h0⟩ := hq
  have key : Reachable s' ∧ s'.loc w = .uOver q ∧ (w ∈ s'.waits h → ¬ started (s'.loc h) = true ∧
      ∀ c t k todo, mTodo (s'.mgr c t) = some (k, todo) → k.ev = h → w ∈ todo) := by
    refine Reach.inv (P := fun s' => Reachable s' ∧ s'.loc w = .uOver q ∧ (w ∈ s'.waits h → ¬ started (s'.loc h) = true ∧
      ∀ c t k todo, mTodo (s'.mgr c t) = some (k, todo) → k.ev = h → w ∈ todo)) ?_ ?_ he
    · rintro s1 a s2 ⟨hr1, hl1, ih⟩ hst
      have st := step_of (all_of hr1) hst
      have hl2 : s2.loc w = .uOver q := by
        rcases st.ln w with l | l
        · rw [l]; exact hl1
        · rw [hl1] at l; exact absurd l (uOver_next q)
      have hr2 : Reachable s2 := hr1.trans ⟨[a], by simp [runSched, hst]⟩
      refine ⟨hr2, hl2, ?_⟩
      intro hw2
      -- the command has an event in both states, or is new
      by_cases hun : s1.loc h = .unborn
      · refine ⟨?_, ?_⟩
        · intro hs
          rcases st.ln h with l | l
          · rw [l, hun] at hs; simp [started] at hs
          · rcases started_next l hs with e | ⟨_, _, e, _⟩ <;> rw [hun] at e <;> simp [started] at e
        · intro c t k todo hm hk
          have := todo_loc st.all'.i hm
          rw [hk] at this
          rcases st.ln h with l | l
          · rw [l, hun] at this; simp at this
          · rw [this, hun] at l; cases l
      · have hw1 : w ∈ s1.waits h := by rw [step_waits st h hun] at hw2; exact hw2
        obtain ⟨ih1, ih2⟩ := ih hw1
        refine ⟨?_, ?_⟩
        · intro hs
          have hst2 : ∃ c t, Obs.start c t h ∈ s2.log := by
            revert hs
            cases hl : s2.loc h <;> intro hs <;> simp [started] at hs
            all_goals exact ⟨_, _, obs_mem st.all'.i (by rw [hl]; simp [obsOf]; exact ⟨rfl, rfl⟩)⟩
          obtain ⟨c, t, hm⟩ := hst2
          by_cases ho : Obs.start c t h ∈ s1.log
          · exact ih1 (start_loc st.all.i ho)
          · obtain ⟨k, hk, hkh⟩ := start_tr st hm ho
            exact absurd (ih2 c t k [] (by rw [hk]; rfl) hkh) (by simp)
        · obtain ⟨⟨i, i2, hi⟩, al', hub, tr, ln, lu⟩ := id st
          have other : ∀ c0 t0 p, s2.mgr = upd2 s1.mgr c0 t0 p →
              (∀ k todo, mTodo p = some (k, todo) → k.ev = h → w ∈ todo) →
              ∀ c t k todo, mTodo (s2.mgr c t) = some (k, todo) → k.ev = h → w ∈ todo := by
            intro c0 t0 p hmg hp c t k todo hm hk
            rw [hmg] at hm
            revert hm
            exact upd2_cases (P := fun v => mTodo v = some (k, todo) → w ∈ todo) (fun _ _ hv => hp k todo hv hk)
              (fun _ hv => ih2 c t k todo hv hk)
          cases tr with
          | pop c t k rest hn hp hq' hd =>
            have hk := i.q c t k (by rw [hq']; simp)
            refine other c t _ (by simp; rfl) ?_
            intro k' todo hm hkh
            simp [mTodo] at hm
            obtain ⟨rfl, rfl⟩ := hm
            rw [hk.2, hkh]; exact hw1
          | depFind c t k x rest hn hp he =>
            refine other c t _ (by simp; rfl) ?_
            intro k' todo hm hkh
            simp [mTodo] at hm
            obtain ⟨rfl, rfl⟩ := hm
            exact ih2 c t k _ (by rw [hp]; rfl) hkh
          | depNext c t k x rest hn hp hr' h0' =>
            refine other c t _ (by simp; rfl) ?_
            intro k' todo hm hkh
            simp [mTodo] at hm
            obtain ⟨rfl, rfl⟩ := hm
            have := ih2 c t k (x :: rest) (by rw [hp]; rfl) hkh
            simp at this
            rcases this with rfl | h'
            · exfalso
              have hf := i.fields w
              rw [hl1] at hf; simp [core, expect] at hf
              rw [hf.2.2.2.1] at h0'; exact h0 h0'
            · exact h'
          | createCtx j ooo hp => intro c t k todo hm hk; exact ih2 c t k todo hm hk
          | _ =>
            first
              | (intro c t k todo hm hk; simp at hm; exact ih2 c t k todo hm hk)
              | (refine other _ _ _ (by simp; rfl) ?_; intro k' todo hm; simp [mTodo] at hm)
    · refine ⟨hr, hl, ?_⟩
      intro hw0
      have hun := (all_of hr).i.fresh h hb
      refine ⟨by rw [hun]; simp [started], ?_⟩
      intro c t k todo hm hk
      have := todo_loc (all_of hr).i hm
      rw [hk, hun] at this; simp at this
  rintro ⟨c, t, hm⟩
  exact (key.2.2 hw).1 (start_loc (all_of key.1).i hm)

/-- "Not executed at all if a dependency did not succeed" is FALSE through a chain: a command that was given up because
its dependency failed counts as a success for the commands waiting on it, and these run. -/
theorem C10_skipped_dependency_fails : ∃ s h w, Reachable s ∧ w ∈ s.waits h ∧ Skipped s w ∧ Began s h := by
  have hex : ∃ s, runSched step init [.createCtx 0 false, .enqueue 0 0xDECAF [] false, .enqueue2 0 (fun _ => true),
      .enqueue 0 0xDECAF [0xDECB0] false, .enqueue2 0 (fun _ => true), .enqueue 0 0xDECAF [0xDECB1] false, .enqueue2 0 (fun _ => true),
      .pop 0xDECAF 0, .dep 0xDECAF 0, .run 0xDECAF 0 (-4), .run 0xDECAF 0 0, .run 0xDECAF 0 0, .run 0xDECAF 0 0, .run 0xDECAF 0 0, .run 0xDECAF 0 0,
      .pop 0xDECAF 0, .dep 0xDECAF 0, .dep 0xDECAF 0, .dep 0xDECAF 0,
      .pop 0xDECAF 0, .dep 0xDECAF 0, .dep 0xDECAF 0, .dep 0xDECAF 0] = some s ∧ s.waits 0xDECB2 = [0xDECB1] ∧
      Obs.skip 0xDECAF 0 0xDECB1 ∈ s.log ∧ Obs.start 0xDECAF 0 0xDECB2 ∈ s.log := by
    refine ⟨_, rfl, ?_⟩
    decide +kernel
  obtain ⟨s, h1, h2, h3, h4⟩ := hex
  exact ⟨s, 0xDECB2, 0xDECB1, ⟨_, h1⟩, by rw [h2]; simp, ⟨_, _, h3⟩, ⟨_, _, h4⟩⟩

/-- It is also FALSE for user events: the future becomes ready before the error code is stored, so that a waiting
manager can start the command, and the user event then reports the error. -/
theorem C10_user_event_race_fails : ∃ s h w i code, Reachable s ∧ w ∈ s.waits h ∧ Began s h ∧
    (i, Call.setUserEventStatus w code, NO_ERROR) ∈ s.rets ∧ code ≠ 4 := by
  have hex : ∃ s, runSched step init [.createCtx 0 false, .createUser 0 0xDECAF,
      .enqueue 0 0xDECAF [0xDECB0] false, .enqueue2 0 (fun _ => true),
      .pop 0xDECAF 0, .dep 0xDECAF 0, .signal 1 0xDECB0 (-4), .signal2 1, .signal2 1,
      .dep 0xDECAF 0, .dep 0xDECAF 0, .signal2 1, .signal2 1, .signal2 1, .signal2 1] = some s ∧ s.waits 0xDECB1 = [0xDECB0] ∧
      Obs.start 0xDECAF 0 0xDECB1 ∈ s.log ∧ (1, Call.setUserEventStatus 0xDECB0 (-4), NO_ERROR) ∈ s.rets := by
    refine ⟨_, rfl, ?_⟩
    decide +kernel
  obtain ⟨s, h1, h2, h3, h4⟩ := hex
  exact ⟨s, 0xDECB1, 0xDECB0, 1, -4, ⟨_, h1⟩, by rw [h2]; simp, ⟨_, _, h3⟩, h4, by decide⟩

/-- The hypotheses are met: a command that waits on a successful one is executed after it; one that waits on a failed
command, and one on a user event set to an error, are given up. -/
example :
    let fin : List Act := [.run 0xDECAF 0 0, .run 0xDECAF 0 0, .run 0xDECAF 0 0, .run 0xDECAF 0 0, .run 0xDECAF 0 0]
    let a : List Act := [.createCtx 0 false, .enqueue 0 0xDECAF [] false, .enqueue2 0 (fun _ => true),
      .enqueue 0 0xDECAF [0xDECB0] false, .enqueue2 0 (fun _ => true), .enqueue 0 0xDECAF [0xDECB1] false, .enqueue2 0 (fun _ => true),
      .pop 0xDECAF 0, .dep 0xDECAF 0, .run 0xDECAF 0 0] ++ fin ++
      [.pop 0xDECAF 0, .dep 0xDECAF 0, .dep 0xDECAF 0, .dep 0xDECAF 0, .run 0xDECAF 0 (-2)] ++ fin ++
      [.pop 0xDECAF 0, .dep 0xDECAF 0, .dep 0xDECAF 0]
    (runSched step init a).map (fun s => s.log.reverse) = some [.submit 0xDECAF 0 0xDECB0, .submit 0xDECAF 0 0xDECB1,
      .submit 0xDECAF 0 0xDECB2, .start 0xDECAF 0 0xDECB0, .stop 0xDECAF 0 0xDECB0 0, .start 0xDECAF 0 0xDECB1,
      .stop 0xDECAF 0 0xDECB1 (-2), .skip 0xDECAF 0 0xDECB2] ∧
    let b : List Act := [.createCtx 0 false, .createUser 0 0xDECAF, .signal 0 0xDECB0 (-8), .signal2 0, .signal2 0, .signal2 0,
      .signal2 0, .signal2 0, .signal2 0, .enqueue 0 0xDECAF [0xDECB0] false, .enqueue2 0 (fun _ => true), .pop 0xDECAF 0, .dep 0xDECAF 0, .dep 0xDECAF 0]
    (runSched step init b).map (fun s => (s.rets.head?, s.log)) = some (some (0, .enqueue 0xDECAF 0xDECB1 [0xDECB0], 0),
      [.skip 0xDECAF 0 0xDECB1, .submit 0xDECAF 0 0xDECB1]) := by
  decide +kernel

end Mcut.Api
