import Verif.Lemmas.C03

/-!
# C03 — mcDebugMessageControl changes exactly the selected filter bits
-/
namespace Mcut.Ctx

/-- An accepted call sets or clears exactly the named known bits of the three filters, and touches nothing else of
the context. A call with other arguments fails with MC_INVALID_VALUE and changes nothing.
Missing: which calls are accepted differs from the documentation for two flags (C03_source_api_rejected_fails, C03_frontend_source_fails). -/
theorem C03_control_partial (c : Ctx) (s t v : Word) (enabled : Bool) :
    (Accepted s t v →
      (mcDebugMessageControl c s t v enabled).2 = .noError ∧
      (∀ i < 32, (mcDebugMessageControl c s t v enabled).1.fSource.getLsbD i =
        if i < 2 ∧ s.getLsbD i = true then enabled else c.fSource.getLsbD i) ∧
      (∀ i < 32, (mcDebugMessageControl c s t v enabled).1.fType.getLsbD i =
        if i < 3 ∧ t.getLsbD i = true then enabled else c.fType.getLsbD i) ∧
      (∀ i < 32, (mcDebugMessageControl c s t v enabled).1.fSeverity.getLsbD i =
        if i < 4 ∧ v.getLsbD i = true then enabled else c.fSeverity.getLsbD i) ∧
      { (mcDebugMessageControl c s t v enabled).1 with
        fSource := c.fSource, fType := c.fType, fSeverity := c.fSeverity } = c) ∧
    (¬ Accepted s t v → mcDebugMessageControl c s t v enabled = (c, .invalidValue)) := by
  rw [control_cases]
  constructor
  · intro h
    simp only [h, if_true]
    exact ⟨trivial, fun i hi => fSource_control c s t v enabled i hi, fun i hi => fType_control c s t v enabled i hi,
      fun i hi => fSeverity_control c s t v enabled i hi, rfl⟩
  · intro h; simp [h]

/-- After any history of API actions each filter bit holds what the last accepted call naming it asked for, and its
initial value if there was none. -/
theorem C03_last_writer (c : Ctx) (ops : List Op) (i : Nat) (hi : i < 32) :
    (run c ops).fSource.getLsbD i =
      ((ops.filterMap (says (fun a => a.1) 2 i)).getLast?).getD (c.fSource.getLsbD i) ∧
    (run c ops).fType.getLsbD i =
      ((ops.filterMap (says (fun a => a.2.1) 3 i)).getLast?).getD (c.fType.getLsbD i) ∧
    (run c ops).fSeverity.getLsbD i =
      ((ops.filterMap (says (fun a => a.2.2) 4 i)).getLast?).getD (c.fSeverity.getLsbD i) := by
  induction ops generalizing c with
  | nil => simp [run]
  | cons o ops ih =>
    have h := step_bits c o i hi
    have ih := ih (step c o).1
    simp only [filterMap_cons_toList, getLast?_getD_cons]
    rw [h.1, h.2.1, h.2.2] at ih
    exact ih

/-- The float-exponent trick of `trailing_zeroes` finds the lowest set bit of every non-zero word. -/
theorem C03_trailing_zeroes (v : Word) (hv : v ≠ 0) :
    ∃ k : Nat, trailingZeroes v = k ∧ v.getLsbD k = true ∧ ∀ j < k, v.getLsbD j = false := by
  obtain ⟨k, hk, hb, hl⟩ := exists_low_bit v hv
  refine ⟨k, ?_, hb, hl⟩
  have hneg := and_neg_self v k hk hb hl
  simp only [trailingZeroes, hneg, floatExponentField, one_shl_ne_zero k hk, if_false, log2_one_shl k hk]
  omega

/-- The documented source MC_DEBUG_SOURCE_API (include/mcut/mcut.h:760) is refused: API messages can only be switched on and
off together with kernel messages. -/
theorem C03_source_api_rejected_fails (c : Ctx) (t v : Word) (enabled : Bool) :
    mcDebugMessageControl c SOURCE_API t v enabled = (c, .invalidValue) := by
  rw [control_cases, if_neg]
  rintro ⟨h | h, -⟩ <;> revert h <;> decide

/-- "Match all" does not include MC_DEBUG_SOURCE_FRONTEND: no history ever enables that source. -/
theorem C03_frontend_source_fails (flags : Word) (ops : List Op) :
    (run (Ctx.create flags) ops).fSource &&& SOURCE_FRONTEND = 0 := by
  apply Classical.byContradiction
  intro h
  have hb := (and_one_shl_ne (run (Ctx.create flags) ops).fSource 2 (by omega)).1 h
  have := (C03_last_writer (Ctx.create flags) ops 2 (by omega)).1
  have hs : ops.filterMap (says (fun a => a.1) 2 2) = [] := by
    rw [List.filterMap_eq_nil_iff]
    intro o _
    cases o <;> simp [says]
  rw [hs, hb] at this
  simp [Ctx.create] at this

/-- Non-vacuity: enabling everything, then disabling notifications and (with everything) errors. -/
example : Accepted SOURCE_ALL TYPE_ALL SEVERITY_ALL ∧ Accepted SOURCE_KERNEL TYPE_ERROR SEVERITY_NOTIFICATION ∧
    (let c := run (Ctx.create MC_DEBUG) [.control SOURCE_ALL TYPE_ALL SEVERITY_ALL true,
      .control SOURCE_KERNEL TYPE_ERROR SEVERITY_NOTIFICATION false]
     (c.fSource, c.fType, c.fSeverity) = (1#32, 6#32, 7#32)) := by decide

example : trailingZeroes 24#32 = 3 := by decide

end Mcut.Ctx
