import Verif.Lemmas.C13

/-! C13: user events are signalled at most once. -/
namespace Mcut.Api

/-- At most one call of mcSetUserEventStatus per event succeeds, in every interleaving of any number of callers. -/
theorem C13_at_most_one_success (s : St) (hr : Reachable s) (h : Nat) : successes s h ≤ 1 := by
  rw [successes_eq, uinv hr h]; split <;> omega

/-- A call that succeeded had one of the four settable codes, and the event is a user event that reports just that
result. -/
theorem C13_success_means_settable (s : St) (hr : Reachable s) (i h : Nat) (code : Int)
    (hc : (i, Call.setUserEventStatus h code, NO_ERROR) ∈ s.rets) :
    Settable code ∧ (s.ev h).user = true ∧ (s.ev h).rt = (if code = 4 then 0 else code) ∧
      ((s.ev h).stat = .complete ↔ code = 4) := by
  have := (rinv hr).rets _ hc
  simp only [RetOk] at this
  rcases this with ⟨_, q, hq, hk, hq'⟩ | h1 | ⟨h1, _⟩
  · have hf := (all_of hr).i.fields h
    rw [hq] at hf
    simp [core, expect] at hf
    rcases hk with rfl | rfl | rfl | rfl <;> simp at hq' <;> subst hq' <;> simp [hf, Settable] <;> decide
  · exact absurd h1 (by decide)
  · exact absurd h1 (by decide)

/-- The results a call can give. -/
theorem C13_results (s : St) (hr : Reachable s) (i h : Nat) (code r : Int)
    (hc : (i, Call.setUserEventStatus h code, r) ∈ s.rets) : r = NO_ERROR ∨ r = INVALID_VALUE ∨ r = MAX_ENUM := by
  have := (rinv hr).rets _ hc
  simp only [RetOk] at this
  rcases this with ⟨h1, _⟩ | h1 | ⟨h1, _⟩ <;> simp [h1]

/-- The steps of a repeated call: on a user event whose status was set before, it returns an error and changes nothing
that can be seen of any event. -/
theorem C13_repeat_changes_nothing (s s' : St) (hr : Reachable s) (i h : Nat) (code : Int) (hp : s.cl i = .sig h code)
    (hu : (s.ev h).user = true) (hs : (s.ev h).stat ≠ .submitted) (hst : step s (.signal2 i) = some s') :
    s'.rets = (i, .setUserEventStatus h code, MAX_ENUM) :: s.rets ∧ s'.evs = s.evs ∧ s'.log = s.log ∧
      ∀ x, visible (s'.ev x) = visible (s.ev x) := by
  have hc : (s.ev h).called = true := by
    have hf := (all_of hr).i.fields h
    simp only [core] at hf
    cases hl : s.loc h <;> rw [hl] at hf <;> simp [expect, hu] at hf <;> first | exact hf.2.2.2.2 | exact absurd hf.1 hs
  simp only [step] at hst
  split at hst
  · simp at hst
  · simp [signalStep, hp, hu, hc] at hst
    subst hst
    refine ⟨by simp [ret], by simp, by simp, ?_⟩
    intro x
    have := dropEv_core s h (.cl i) x
    simp only [core, Prod.mk.injEq] at this
    simp only [ret_ev, visible]
    rw [this.2.1, this.2.2.2.1, this.2.2.2.2.1]

/-- Every settable code is accepted: a call on a fresh user event, undisturbed, succeeds. -/
theorem C13_settable_accepted (s : St) (hr : Reachable s) (i h : Nat) (code : Int) (hub : s.ub = false) (hi : s.cl i = .idle)
    (ho : h ∈ s.returned) (he : h ∈ s.evs) (hu : (s.ev h).user = true) (hn : (s.ev h).stat = .submitted) (hs : Settable code) :
    ∃ s', Reach step s s' ∧ (i, .setUserEventStatus h code, NO_ERROR) ∈ s'.rets := by
  have hc : (s.ev h).called = false := by
    have hf := (all_of hr).i.fields h
    simp only [core] at hf
    cases hl : s.loc h <;> rw [hl] at hf <;> simp [expect, hu, hn] at hf <;> first | exact hf.2.2.2 | exact hf.2.2.2.2 | skip
    all_goals (split at hf <;> simp at hf)
  obtain ⟨s', h1, h2⟩ := sig_run s i h code hub hi (Or.inl ho) he hu hc hs
  exact ⟨s', ⟨_, h1⟩, h2⟩

/-- "A failed call changes nothing observable" is FALSE: a call with a status that is not accepted returns
MC_INVALID_VALUE but makes the event RUNNING and its waiters succeed, and a later call with a good status is refused
(frontend.cpp:480-503 invokes the packaged task before it looks at the status). -/
theorem C13_failed_call_changes_nothing_fails : ∃ s s' s'' h, Reachable s ∧ Reach step s s' ∧ Reach step s' s'' ∧
    visible (s.ev h) = (.submitted, 0, false) ∧
    s'.rets.head? = some (0, .setUserEventStatus h 1, INVALID_VALUE) ∧ visible (s'.ev h) = (.running, 0, true) ∧
    s''.rets.head? = some (0, .setUserEventStatus h 4, MAX_ENUM) ∧ successes s'' h = 0 := by
  have hex : ∃ s, runSched step init [.createCtx 0 false, .createUser 0 0xDECAF] = some s ∧
      ∃ s', runSched step s [.signal 0 0xDECB0 1, .signal2 0, .signal2 0, .signal2 0] = some s' ∧
      ∃ s'', runSched step s' [.signal 0 0xDECB0 4, .signal2 0] = some s'' ∧
      visible (s.ev 0xDECB0) = (.submitted, 0, false) ∧
      s'.rets.head? = some (0, .setUserEventStatus 0xDECB0 1, INVALID_VALUE) ∧ visible (s'.ev 0xDECB0) = (.running, 0, true) ∧
      s''.rets.head? = some (0, .setUserEventStatus 0xDECB0 4, MAX_ENUM) ∧ successes s'' 0xDECB0 = 0 := by
    refine ⟨_, rfl, _, rfl, _, rfl, ?_⟩
    decide +kernel
  obtain ⟨s, h1, s', h2, s'', h3, h4⟩ := hex
  exact ⟨s, s', s'', 0xDECB0, ⟨_, h1⟩, ⟨_, h2⟩, ⟨_, h3⟩, h4⟩

/-- The hypotheses are met: two threads race to set one user event; one succeeds, the other is refused. -/
example : (runSched step init [.createCtx 0 false, .createUser 0 0xDECAF, .signal 0 0xDECB0 (-8), .signal 1 0xDECB0 4,
    .signal2 1, .signal2 0, .signal2 1, .signal2 1, .signal2 1, .signal2 1, .signal2 1]).map
    (fun s => (s.rets.take 2, successes s 0xDECB0, visible (s.ev 0xDECB0))) =
    some ([(1, .setUserEventStatus 0xDECB0 4, 0), (0, .setUserEventStatus 0xDECB0 (-8), -1)], 1, (.complete, 0, true)) := by
  decide +kernel

end Mcut.Api
