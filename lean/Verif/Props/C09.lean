import Verif.Lemmas.C09

/-! C09: event callbacks run once per registration. -/
namespace Mcut.Api

/-- No callback is ever run twice for one registration: under every interleaving of registration, re-registration,
completion and release. -/
theorem C09_at_most_once (s : St) (hr : Reachable s) (k : Nat) : timesRun s k ≤ 1 := by
  rw [timesRun_eq]; exact List.nodup_iff_count_le_one.1 (cinv hr).cnd k

/-- A callback that runs was registered for just that event, and for no other. -/
theorem C09_only_registered (s : St) (hr : Reachable s) (h k : Nat) (v : Via) (hm : CbObs.call h k v ∈ s.cbs) :
    Registered s h k ∧ ∀ h', Registered s h' k → h' = h :=
  ⟨(cinv hr).cr h k v hm, fun h' h2 => (cinv hr).runiq h' h k h2 ((cinv hr).cr h k v hm)⟩

/-- Once a command is COMPLETE, the newest registration for its event has run exactly once, whether it was made before
or after completion. -/
theorem C09_exactly_once (s : St) (hr : Reachable s) (h k : Nat) (hn : Newest s h k) (hu : (s.ev h).user = false)
    (hc : (s.ev h).stat = .complete) : timesRun s k = 1 := by
  apply ran_once (cinv hr) (ninv hr) hn
  have h1 := (all_of hr).i.fields h
  simp only [core] at h1
  cases hl : s.loc h <;> rw [hl] at h1 <;> simp [expect, hu, hc] at h1 <;> rfl

/-- Once a call of mcSetUserEventStatus for a user event has succeeded, the newest registration for that event has run
exactly once. -/
theorem C09_exactly_once_user (s : St) (hr : Reachable s) (h k i : Nat) (code : Int) (hn : Newest s h k)
    (hc : (i, Call.setUserEventStatus h code, NO_ERROR) ∈ s.rets) : timesRun s k = 1 := by
  apply ran_once (cinv hr) (ninv hr) hn
  have := (rinv hr).rets _ hc
  simp only [RetOk] at this
  rcases this with ⟨_, q, hq, _⟩ | h1 | ⟨h1, _⟩
  · rw [hq]; rfl
  · exact absurd h1 (by decide)
  · exact absurd h1 (by decide)

/-- Callbacks run by the completion of the command or by a registration made after it run only when the command's work
has ended (or the user event's status was accepted). What is missing from the full claim: see
`C09_before_finish_fails`. -/
theorem C09_never_early_partial (s : St) (hr : Reachable s) (h k : Nat) (v : Via) (hm : CbObs.call h k v ∈ s.cbs)
    (hv : v ≠ .destructor) : Ended s h ∨ Accepted s h := by
  apply fin_ended (all_of hr).i
  exact (ninv hr).fin (h, k) (List.mem_filterMap.2 ⟨_, hm, by simp [CbObs.early, hv]⟩)

/-- The only other way a callback runs: the event was released and nothing refers to it any more. -/
theorem C09_destructor_only_after_release (s : St) (hr : Reachable s) (h k : Nat) (hm : CbObs.call h k .destructor ∈ s.cbs) :
    h ∉ s.evs ∧ (s.ev h).hold = [] := by
  have hd := (cinv hr).destr h k hm
  have := ((all_of hr).hi.deadOk h).1 hd
  exact ⟨this.2.1, this.1⟩

/-- "It never runs before the command has finished" is FALSE of the code: releasing the event of a command that has not
started runs the registered callback (frontend.h:399-408), although the command's work has not even begun. -/
theorem C09_before_finish_fails : ∃ s h k v, Reachable s ∧ CbObs.call h k v ∈ s.cbs ∧ ¬ Ended s h ∧ ¬ Accepted s h := by
  have hex : ∃ s, runSched step init [.createCtx 0 false, .enqueue 0 0xDECAF [] false, .enqueue2 0 (fun _ => true),
      .setCb 0 0xDECB0, .setCb2 0, .release 0 [0xDECB0], .release2 0] = some s ∧ s.cbs = [.call 0xDECB0 0 .destructor, .reg 0xDECB0 0] ∧
      s.log = [.submit 0xDECAF 0 0xDECB0] ∧ (s.ev 0xDECB0).fin = false := by
    refine ⟨_, rfl, ?_⟩
    decide +kernel
  obtain ⟨s, h1, h2, h3, h4⟩ := hex
  refine ⟨s, 0xDECB0, 0, .destructor, ⟨_, h1⟩, by rw [h2]; simp, ?_, ?_⟩
  · rintro ⟨c, t, r, h⟩; rw [h3] at h; simp at h
  · rintro ⟨_, h⟩; rw [h4] at h; simp at h

/-- The hypotheses are met: two registrations, one superseded before completion (never run), one run by completion, and
one made afterwards, run at once. -/
example :
    let a : List Act := [.createCtx 0 false, .enqueue 0 0xDECAF [] false, .enqueue2 0 (fun _ => true),
      .setCb 0 0xDECB0, .setCb2 0, .pop 0xDECAF 0, .dep 0xDECAF 0, .setCb 1 0xDECB0, .setCb2 1, .run 0xDECAF 0 0, .run 0xDECAF 0 0,
      .run 0xDECAF 0 0, .run 0xDECAF 0 0, .run 0xDECAF 0 0]
    let b : List Act := [.setCb 0 0xDECB0, .setCb2 0]
    (runSched step init a).map (fun s => (s.cbs, (s.ev 0xDECB0).stat)) =
      some ([.call 0xDECB0 1 .completion, .reg 0xDECB0 1, .reg 0xDECB0 0], .complete) ∧
    (runSched step init (a ++ b)).map (fun s => (s.cbs, timesRun s 0, timesRun s 1, timesRun s 2)) =
      some ([.call 0xDECB0 2 .registration, .reg 0xDECB0 2, .call 0xDECB0 1 .completion, .reg 0xDECB0 1, .reg 0xDECB0 0], 0, 1, 1) := by
  decide +kernel

end Mcut.Api
