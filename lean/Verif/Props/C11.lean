import Verif.Lemmas.C10
import Verif.Spec.C11

/-! C11: failure of a dependency is NOT visible on dependants. -/
namespace Mcut.Api

/-- What the code does instead of the claim, for every schedule: the event of a command that was given up reports SUBMITTED
and MC_NO_ERROR, now and forever after. -/
theorem C11_skipped_reports_no_error (s s' : St) (hr : Reachable s) (h : Nat) (hk : Skipped s h) (he : Reach step s s') :
    info s' h = (.submitted, 0) := by
  have hr' := hr.trans he
  have key : ∃ c t, s'.loc h = .skipping c t ∨ s'.loc h = .skipped c t := by
    refine reach_rel (R := fun s s' => (∃ c t, s.loc h = .skipping c t ∨ s.loc h = .skipped c t) →
      ∃ c t, s'.loc h = .skipping c t ∨ s'.loc h = .skipped c t) ?_ ?_ ?_ hr he ?_
    · intro s h; exact h
    · intro s t u _ _ h1 h2 h3; exact h2 (h1 h3)
    · rintro s s' st ⟨c, t, hl⟩
      rcases st.ln h with l | l
      · rw [l]; exact ⟨c, t, hl⟩
      · generalize s'.loc h = l' at l
        rcases hl with hl | hl <;> rw [hl] at l <;> cases l
        exact ⟨c, t, Or.inr rfl⟩
    · obtain ⟨c, t, hk⟩ := hk
      exact ⟨c, t, skip_loc (all_of hr).i hk⟩
  obtain ⟨c, t, hl⟩ := key
  have hf := (all_of hr').i.fields h
  simp only [core] at hf
  rcases hl with hl | hl <;> rw [hl] at hf <;> simp [expect] at hf <;> simp [info, hf]

/-- And no call of mcWaitForEvents ever reports such a command as the failing one. -/
theorem C11_wait_never_blames_skipped (s : St) (hr : Reachable s) (h i : Nat) (ws : List Nat) (q r : Int) (hk : Skipped s h) :
    (i, Call.waitForEvents ws (.failed h q), r) ∉ s.rets := by
  intro hm
  obtain ⟨_, _, _, p, rest, _, _, hf⟩ := (rinv hr).rets _ hm
  obtain ⟨c, t, hk⟩ := hk
  rcases skip_loc (all_of hr).i hk with e | e <;> rw [e] at hf <;> simp [failedWith] at hf

/-- The claim itself is FALSE: a command is given up because a wait-list event failed, and a caller that waits on the
command is told MC_NO_ERROR. -/
theorem C11_dependant_reports_error_fails : ∃ s h w i, Reachable s ∧ w ∈ s.waits h ∧ EndedWith s w (-4) ∧
    s.why h = some (.depFailed w (-4)) ∧ Skipped s h ∧ (i, Call.waitForEvents [h] .ok, NO_ERROR) ∈ s.rets ∧
    info s h = (.submitted, 0) := by
  have hex : ∃ s, runSched step init [.createCtx 0 false, .enqueue 0 0xDECAF [] false, .enqueue2 0 (fun _ => true),
      .enqueue 0 0xDECAF [0xDECB0] false, .enqueue2 0 (fun _ => true), .wait 0 [0xDECB1], .wait2 0,
      .pop 0xDECAF 0, .dep 0xDECAF 0, .run 0xDECAF 0 (-4), .run 0xDECAF 0 0, .run 0xDECAF 0 0, .run 0xDECAF 0 0, .run 0xDECAF 0 0, .run 0xDECAF 0 0,
      .pop 0xDECAF 0, .dep 0xDECAF 0, .dep 0xDECAF 0, .dep 0xDECAF 0, .wait2 0, .wait2 0] = some s ∧ s.waits 0xDECB1 = [0xDECB0] ∧
      Obs.stop 0xDECAF 0 0xDECB0 (-4) ∈ s.log ∧ s.why 0xDECB1 = some (.depFailed 0xDECB0 (-4)) ∧
      Obs.skip 0xDECAF 0 0xDECB1 ∈ s.log ∧ (0, Call.waitForEvents [0xDECB1] .ok, NO_ERROR) ∈ s.rets ∧
      info s 0xDECB1 = (.submitted, 0) := by
    refine ⟨_, rfl, ?_⟩
    decide +kernel
  obtain ⟨s, h1, h2, h3, h4, h5, h6, h7⟩ := hex
  exact ⟨s, 0xDECB1, 0xDECB0, 0, ⟨_, h1⟩, by rw [h2]; simp, ⟨_, _, h3⟩, h4, ⟨_, _, h5⟩, h6, h7⟩

end Mcut.Api
