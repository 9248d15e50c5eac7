import Verif.Lemmas.C04

/-!
# C04 — debug messages are delivered iff enabled, and to exactly one sink
-/
namespace Mcut.Ctx

/-- One message: delivered exactly when debugging is on and source, type and severity are all enabled; then to the
callback if there is one and to the log otherwise; in every other case the context is unchanged. -/
theorem C04_message (c : Ctx) (m : Msg) :
    (Enabled c m → ∀ cb, c.callback = some cb → dbgCb c m = { c with calls := c.calls ++ [(cb, m)] }) ∧
    (Enabled c m → c.callback = none → dbgCb c m = { c with logs := c.logs ++ [m] }) ∧
    (¬ Enabled c m → dbgCb c m = c) := by
  classical
  rw [dbgCb_eq]
  refine ⟨fun h cb hcb => ?_, fun h hcb => ?_, fun h => ?_⟩
  · rw [if_pos h]; simp [hcb]
  · rw [if_pos h]; simp [hcb]
  · rw [if_neg h]

/-- Over every history, the log and the callback trace grow by exactly the enabled messages, in order, each to one
sink chosen by whether a callback is registered at that moment. -/
theorem C04_history (c : Ctx) (ops : List Op) :
    (run c ops).logs = c.logs ++ deliveredToLog c ops ∧
    (run c ops).calls = c.calls ++ deliveredToCallback c ops := by
  induction ops generalizing c with
  | nil => simp [run, deliveredToLog, deliveredToCallback]
  | cons o ops ih =>
    have h := step_sinks c o
    have ih := ih (step c o).1
    have hrun : run c (o :: ops) = run (step c o).1 ops := rfl
    rw [hrun, ih.1, ih.2, h.1, h.2, deliveredToLog, deliveredToCallback]
    simp [List.append_assoc]
    cases c.callback <;> rfl

/-- A context created without MC_DEBUG never delivers anything, whatever is done with it. -/
theorem C04_silent_without_debug (flags : Word) (h : flags.getLsbD 0 = false) (ops : List Op) :
    (run (Ctx.create flags) ops).logs = [] ∧ (run (Ctx.create flags) ops).calls = [] := by
  have key : ∀ (ops : List Op) (c : Ctx), c.flags.getLsbD 0 = false →
      deliveredToLog c ops = [] ∧ deliveredToCallback c ops = [] := by
    intro ops
    induction ops with
    | nil => intro c _; exact ⟨rfl, rfl⟩
    | cons o ops ih =>
      intro c hc
      have hp : ∀ ms, passing c ms = [] := by
        intro ms
        simp only [passing, List.filter_eq_nil_iff, decide_eq_true_eq]
        rintro m - ⟨h, -⟩; rw [hc] at h; simp at h
      have hf : (step c o).1.flags = c.flags := by
        cases o with
        | control s t v e => simp only [step, control_cases]; split <;> rfl
        | setCallback cb => cases cb <;> rfl
        | emit m => exact (dbgCb_filters c m).2.2.2.1
        | getLog n b l f => exact (getLog_filters c n b l f).2.2.2.1
        | getInfo => rfl
        | bind i b p => exact (bind_filters c i b p).2.2.2.1
        | storeIntersectionType => rfl
      have := ih (step c o).1 (by rw [hf]; exact hc)
      constructor
      · simp [deliveredToLog, hp, this.1]
      · simp only [deliveredToCallback, hp, this.2]; cases c.callback <;> rfl
  have hh := C04_history (Ctx.create flags) ops
  have hk := key ops (Ctx.create flags) h
  rw [hk.1, hk.2] at hh
  exact hh

/-- Non-vacuity: a debug context; one message goes to the log, after registering callback 7 the next one goes to the callback, a
disabled one to neither. -/
example :
    let m1 : Msg := ⟨SOURCE_KERNEL, TYPE_OTHER, SEVERITY_LOW, ascii "a"⟩
    let m2 : Msg := ⟨SOURCE_API, TYPE_ERROR, SEVERITY_HIGH, ascii "b"⟩
    let c := run (Ctx.create MC_DEBUG) [.emit m1, .control SOURCE_ALL TYPE_ALL SEVERITY_ALL true, .emit m1,
      .setCallback (some 7), .emit m2]
    c.logs = [m1] ∧ c.calls = [(7, m2)] := by decide

end Mcut.Ctx
