import Verif.Lemmas.C54

/-! C54: clients that follow four rules never cause undefined behaviour. -/
namespace Mcut.Api

/-- Everything that can go wrong: one step that leads to undefined behaviour enqueues with a wait list naming a command
of another context, or sets the status of an event that is no user event, or starts a command whose event was released,
or is the end of a command whose context was released. -/
theorem C54_causes (s s' : St) (a : Act) (hr : Reachable s) (hs : step s a = some s') (hb : s'.ub = true) :
    (∃ i seen c h ws blk w c' t', a = .enqueue2 i seen ∧ s.cl i = .submit c h ws blk ∧ w ∈ ws ∧ c' ≠ c ∧ Obs.submit c' t' w ∈ s.log) ∨
    (∃ i h code, a = .signal2 i ∧ s.cl i = .sig h code ∧ (s.ev h).user = false) ∨
    (∃ c t k, a = .dep c t ∧ s.mgr c t = .lookup k [] ∧ k.ev ∉ s.evs) ∨
    (∃ c t k r, a = .run c t r ∧ s.mgr c t = .run k ∧ c ∉ s.ctxs) :=
  causes s s' a hr hs hb

/-- Clients that follow the four rules never cause undefined behaviour, whatever the threads do. -/
theorem C54_disciplined_clients_are_safe (s : St) (h : DReach s) : s.ub = false := (di_of h).2

/-- Without the rule on mcSetUserEventStatus: the status of a command's event is set. -/
theorem C54_signal_command_fails : ∃ s, Reachable s ∧ s.ub = true ∧ s.rets.map (fun x => x.2.2) = [NO_ERROR, NO_ERROR] := by
  have hex : ∃ s, runSched step init [.createCtx 0 false, .enqueue 0 0xDECAF [] false, .enqueue2 0 (fun _ => true),
      .signal 0 0xDECB0 4, .signal2 0] = some s ∧ s.ub = true ∧ s.rets.map (fun x => x.2.2) = [NO_ERROR, NO_ERROR] := by
    refine ⟨_, rfl, ?_⟩
    decide +kernel
  obtain ⟨s, h1, h2⟩ := hex
  exact ⟨s, ⟨_, h1⟩, h2⟩

/-- Without the rule on mcReleaseEvents: the event of a queued command is released (the call succeeds), then the command
starts. -/
theorem C54_release_pending_event_fails : ∃ s, Reachable s ∧ s.ub = true ∧ (0, Call.releaseEvents, NO_ERROR) ∈ s.rets := by
  have hex : ∃ s, runSched step init [.createCtx 0 false, .enqueue 0 0xDECAF [] false, .enqueue2 0 (fun _ => true),
      .release 0 [0xDECB0], .release2 0, .release2 0, .pop 0xDECAF 0, .dep 0xDECAF 0] = some s ∧ s.ub = true ∧
      (0, Call.releaseEvents, NO_ERROR) ∈ s.rets := by
    refine ⟨_, rfl, ?_⟩
    decide +kernel
  obtain ⟨s, h1, h2⟩ := hex
  exact ⟨s, ⟨_, h1⟩, h2⟩

/-- Without the rule on mcReleaseContext: the context of a running command is released (the call succeeds), and the
manager thread becomes its last owner and joins itself. -/
theorem C54_release_busy_context_fails : ∃ s, Reachable s ∧ s.ub = true ∧ (0, Call.releaseContext 0xDECAF, NO_ERROR) ∈ s.rets := by
  have hex : ∃ s, runSched step init [.createCtx 0 false, .enqueue 0 0xDECAF [] false, .enqueue2 0 (fun _ => true),
      .pop 0xDECAF 0, .dep 0xDECAF 0, .releaseCtx 0 0xDECAF, .releaseCtx2 0, .run 0xDECAF 0 0] = some s ∧ s.ub = true ∧
      (0, Call.releaseContext 0xDECAF, NO_ERROR) ∈ s.rets := by
    refine ⟨_, rfl, ?_⟩
    decide +kernel
  obtain ⟨s, h1, h2⟩ := hex
  exact ⟨s, ⟨_, h1⟩, h2⟩

/-- The hypotheses are met: a disciplined execution that enqueues two commands, with wait lists on a user event and on
a command, sets the user event, waits, and releases everything. -/
example : ∃ s, DReach s ∧ (0, Call.releaseContext 0xDECAF, NO_ERROR) ∈ s.rets ∧ s.evs = [] ∧ s.ctxs = [] := by
  have log : ∀ {l : List Act} {s : St} {x : List Obs}, runSched step init l = some s → (runSched step init l).map St.log = some x → s.log = x := by
    intro l s x h h'; rw [h] at h'; simpa using h'
  have fld : ∀ {α : Type} (f : St → α) {l : List Act} {s : St} {x : α}, runSched step init l = some s → (runSched step init l).map f = some x → f s = x := by
    intro α f l s x h h'; rw [h] at h'; simpa using h'
  have h0 : ∃ s, DReach s ∧ runSched step init [] = some s := ⟨init, .init, rfl⟩
  have h1 := dseg [.createCtx 0 false, .createUser 0 0xDECAF] h0 (by intro a ha t; simp at ha; rcases ha with rfl | rfl <;> trivial) (by decide +kernel)
  have h2 := dact (.enqueue 0 0xDECAF [0xDECB0] false) h1 (by
    intro s e w _ c' t h; rw [log (x := []) e rfl] at h; simp at h) (by decide +kernel)
  have h3 := dseg [.enqueue2 0 (fun _ => true)] h2 (by intro a ha t; simp at ha; subst ha; trivial) (by decide +kernel)
  have h4 := dact (.enqueue 0 0xDECAF [0xDECB1, 0xDECB0] false) h3 (by
    intro s e w _ c' t h; rw [log (x := [.submit 0xDECAF 0 0xDECB1]) e rfl] at h; simp at h; exact h.1) (by decide +kernel)
  have h5 := dseg [.enqueue2 0 (fun _ => true)] h4 (by intro a ha t; simp at ha; subst ha; trivial) (by decide +kernel)
  have h6 := dact (.signal 0 0xDECB0 4) h5 (by
    intro s e
    have := fld (fun s => decide ((0, Call.createUserEvent 0xDECAF 0xDECB0, NO_ERROR) ∈ s.rets)) (x := true) e (by decide +kernel)
    exact ⟨0, 0xDECAF, by simpa using this⟩) (by decide +kernel)
  have h7 := dseg (List.replicate 6 (.signal2 0) ++ [.pop 0xDECAF 0] ++ List.replicate 3 (.dep 0xDECAF 0) ++ List.replicate 6 (.run 0xDECAF 0 0)
    ++ [.pop 0xDECAF 0] ++ List.replicate 5 (.dep 0xDECAF 0) ++ List.replicate 6 (.run 0xDECAF 0 0) ++ [.wait 0 [0xDECB2]] ++ List.replicate 3 (.wait2 0)) h6
    (by intro a ha t; simp [List.mem_replicate] at ha; rcases ha with rfl | rfl | rfl | rfl | rfl | rfl | rfl | rfl | rfl <;> trivial) (by decide +kernel)
  have lg : ∀ {l : List Act} {s : St} {x : List Obs}, runSched step init l = some s → (runSched step init l).map St.log = some
     [.stop 0xDECAF 0 0xDECB2 0, .start 0xDECAF 0 0xDECB2, .stop 0xDECAF 0 0xDECB1 0, .start 0xDECAF 0 0xDECB1, .submit 0xDECAF 0 0xDECB2, .submit 0xDECAF 0 0xDECB1] → 
     ∀ c t h, Obs.submit c t h ∈ s.log → DoneIn s.log h := by
    intro l s x e e' c t h hm
    have e2 := log e e'
    rw [e2] at hm ⊢
    simp at hm
    rcases hm with ⟨-, -, rfl⟩ | ⟨-, -, rfl⟩ <;> exact Or.inl ⟨0xDECAF, 0, 0, by simp⟩
  have h8 := dact (.release 0 [0xDECB0, 0xDECB1, 0xDECB2]) h7 (by
    intro s e h _ c t hm
    exact lg (x := []) e (by decide +kernel) c t h hm) (by decide +kernel)
  have h9 := dseg (List.replicate 4 (.release2 0)) h8 (by intro a ha t; simp [List.mem_replicate] at ha; subst ha; trivial) (by decide +kernel)
  have h10 := dact (.releaseCtx 0 0xDECAF) h9 (by
    intro s e
    refine ⟨fun t h hm => lg (x := []) e (by decide +kernel) 0xDECAF t h hm, ?_⟩
    intro i h ws blk
    cases i with
    | zero =>
      have : s.cl 0 = .idle := fld (fun s => s.cl 0) e (by decide +kernel)
      rw [this]; simp
    | succ n =>
      have : s.cl (n+1) = .idle := fld (fun s => s.cl (n+1)) e rfl
      rw [this]; simp) (by decide +kernel)
  have h11 := dseg [.releaseCtx2 0] h10 (by intro a ha t; simp at ha; subst ha; trivial) (by decide +kernel)
  obtain ⟨s, hd, e⟩ := h11
  refine ⟨s, hd, ?_⟩
  have := fld (fun s => decide ((0, Call.releaseContext 0xDECAF, NO_ERROR) ∈ s.rets ∧ s.evs = [] ∧ s.ctxs = [])) (x := true) e (by decide +kernel)
  simpa using this

end Mcut.Api
