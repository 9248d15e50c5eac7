import Verif.Lemmas.C12

/-! C12: what mcWaitForEvents returns. -/
namespace Mcut.Api

/-- mcWaitForEvents returns MC_NO_ERROR or MC_INVALID_VALUE. With MC_NO_ERROR every listed event finished and none of
the listed commands ended with an error. -/
theorem C12_no_error_partial (s : St) (hr : Reachable s) (ws : List Nat) (h : Waited s ws 0) : ∀ w ∈ ws, FinishedOk s w := by
  obtain ⟨i, out, hm⟩ := h
  have := (rinv hr).rets _ hm
  obtain ⟨_, hw⟩ := this
  cases out with
  | ok => intro w hw'; exact passed_gate (all_of hr).i (hw.2 w hw')
  | failed w q => exact absurd hw.1 (by decide)
  | unknown w => exact absurd hw.1 (by decide)

/-- Otherwise the result is MC_INVALID_VALUE, whatever the event's own error was, and there is a first offending event:
all events before it in the list finished without an error, and it finished with an error or was not in the table when
its turn came (and then stays out of it). -/
theorem C12_error (s : St) (hr : Reachable s) (ws : List Nat) (r : Int) (h : Waited s ws r) (h0 : r ≠ 0) :
    r = INVALID_VALUE ∧ ∃ p w rest, ws = p ++ w :: rest ∧ (∀ x ∈ p, FinishedOk s x) ∧
      ((∃ q, FinishedBad s w q) ∨ Unknown s w) := by
  obtain ⟨i, out, hm⟩ := h
  have hv := (all_of hr).i
  obtain ⟨_, hw⟩ := (rinv hr).rets _ hm
  cases out with
  | ok => exact absurd hw.1 h0
  | failed w q =>
    obtain ⟨h1, h2, p, rest, h3, h4, h5⟩ := hw
    exact ⟨h1, p, w, rest, h3, fun x hx => passed_gate hv (h4 x hx), Or.inl ⟨q, h2, failed_bad hv h5⟩⟩
  | unknown w =>
    obtain ⟨h1, p, rest, h3, h4, h5⟩ := hw
    exact ⟨h1, p, w, rest, h3, fun x hx => passed_gate hv (h4 x hx), Or.inr h5⟩

/-- In particular a listed command that ended with an error never gives MC_NO_ERROR. -/
theorem C12_failed_command_reported (s : St) (hr : Reachable s) (ws : List Nat) (w : Nat) (q : Int) (hw : w ∈ ws)
    (hf : EndedWith s w q) (h0 : q ≠ 0) : ¬ Waited s ws 0 := by
  intro h
  have i := (all_of hr).i
  obtain ⟨j, out, hm⟩ := h
  obtain ⟨_, hx⟩ := (rinv hr).rets _ hm
  cases out with
  | ok =>
    have hp := hx.2 w hw
    obtain ⟨c', t', he⟩ := hf
    rcases stop_loc i he with e | e | e | e | e | e <;> rw [e] at hp <;> simp [passed] at hp
    exact h0 hp
  | failed w q => exact absurd hx.1 (by decide)
  | unknown w => exact absurd hx.1 (by decide)

/-- The "only if" half of the claim is FALSE: MC_NO_ERROR is returned for a user event that is being set to an error, since
the future becomes ready before the error code is stored (frontend.cpp:480-505). Given-up commands are the subject of
C11. -/
theorem C12_only_success_fails : ∃ s w i code, Reachable s ∧ Waited s [w] 0 ∧
    (i, Call.setUserEventStatus w code, NO_ERROR) ∈ s.rets ∧ code ≠ 4 ∧ (s.ev w).rt = code := by
  have hex : ∃ s, runSched step init [.createCtx 0 false, .createUser 0 0xDECAF,
      .wait 0 [0xDECB0], .wait2 0, .signal 1 0xDECB0 (-2), .signal2 1, .signal2 1, .wait2 0, .wait2 0,
      .signal2 1, .signal2 1, .signal2 1, .signal2 1] = some s ∧
      (0, Call.waitForEvents [0xDECB0] .ok, NO_ERROR) ∈ s.rets ∧
      (1, Call.setUserEventStatus 0xDECB0 (-2), NO_ERROR) ∈ s.rets ∧ (s.ev 0xDECB0).rt = -2 := by
    refine ⟨_, rfl, ?_⟩
    decide +kernel
  obtain ⟨s, h1, h2, h3, h4⟩ := hex
  exact ⟨s, 0xDECB0, 1, -2, ⟨_, h1⟩, ⟨_, _, h2⟩, h3, by decide, h4⟩

/-- The hypotheses are met: waiting on a good and a bad command gives MC_INVALID_VALUE, blaming the second; waiting on
the good one alone gives MC_NO_ERROR; waiting on it and a number that is no handle gives MC_INVALID_VALUE. -/
example :
    let fin : List Act := [.run 0xDECAF 0 0, .run 0xDECAF 0 0, .run 0xDECAF 0 0, .run 0xDECAF 0 0, .run 0xDECAF 0 0]
    let a : List Act := [.createCtx 0 false, .enqueue 0 0xDECAF [] false, .enqueue2 0 (fun _ => true),
      .enqueue 0 0xDECAF [] false, .enqueue2 0 (fun _ => true),
      .wait 0 [0xDECB0, 0xDECB1], .wait 1 [0xDECB0], .wait 2 [0xDECB0, 7, 0xDECB1], .wait2 0, .wait2 1, .wait2 2,
      .pop 0xDECAF 0, .dep 0xDECAF 0, .run 0xDECAF 0 0] ++ fin ++
      [.wait2 0, .wait2 1, .wait2 2, .wait2 1, .wait2 0, .wait2 2] ++
      [.pop 0xDECAF 0, .dep 0xDECAF 0, .run 0xDECAF 0 (-2)] ++ fin ++ [.wait2 0]
    (runSched step init a).map (fun s => s.rets.take 3) = some [
      (0, .waitForEvents [0xDECB0, 0xDECB1] (.failed 0xDECB1 (-2)), -4),
      (2, .waitForEvents [0xDECB0, 7, 0xDECB1] (.unknown 7), -4), (1, .waitForEvents [0xDECB0] .ok, 0)] := by
  decide +kernel

end Mcut.Api
