import Verif.Spec.C04

/-! Helper lemmas for `Props/C04.lean`. -/
namespace Mcut.Ctx


theorem and_ne_zero_iff (a b : Word) : (a &&& b ≠ 0) ↔ ∃ i, a.getLsbD i = true ∧ b.getLsbD i = true := by
  constructor
  · intro h
    apply Classical.byContradiction
    intro hne
    apply h
    apply BitVec.eq_of_getLsbD_eq
    intro i _
    show (a &&& b).getLsbD i = (0#32).getLsbD i
    rw [BitVec.getLsbD_and, BitVec.getLsbD_zero]
    cases ha : a.getLsbD i with
    | false => rfl
    | true =>
      cases hb : b.getLsbD i with
      | false => rfl
      | true => exact absurd ⟨i, ha, hb⟩ hne
  · rintro ⟨i, ha, hb⟩ h0
    have := congrArg (fun w => BitVec.getLsbD w i) h0
    simp only [BitVec.getLsbD_and, ha, hb] at this
    rw [show (0 : Word).getLsbD i = false from BitVec.getLsbD_zero] at this
    simp at this

theorem dbgCb_eq (c : Ctx) (m : Msg) [Decidable (Enabled c m)] :
    dbgCb c m = if Enabled c m then
        (match c.callback with
         | some cb => { c with calls := c.calls ++ [(cb, m)] }
         | none => { c with logs := c.logs ++ [m] })
      else c := by
  have hd : (c.flags &&& MC_DEBUG ≠ 0) ↔ c.flags.getLsbD 0 = true := and_one_shl_ne c.flags 0 (by omega)
  have hs := and_ne_zero_iff m.source c.fSource
  have ht := and_ne_zero_iff m.type c.fType
  have hv := and_ne_zero_iff m.severity c.fSeverity
  unfold dbgCb
  by_cases h0 : c.flags &&& MC_DEBUG ≠ 0
  · rw [if_pos h0]
    simp only
    by_cases hE : Enabled c m
    · have := hE
      obtain ⟨-, e1, e2, e3⟩ := this
      have e1 := hs.2 e1; have e2 := ht.2 e2; have e3 := hv.2 e3
      have hcl : ((decide (m.source &&& c.fSource ≠ 0)) && (decide (m.type &&& c.fType ≠ 0)) &&
          (decide (m.severity &&& c.fSeverity ≠ 0))) = true := by
        simp only [Bool.and_eq_true, decide_eq_true_eq]; exact ⟨⟨e1, e2⟩, e3⟩
      rw [if_pos hE, if_pos hcl]
      cases c.callback <;> rfl
    · rw [if_neg hE, if_neg]
      intro hcl
      simp only [Bool.and_eq_true, decide_eq_true_eq] at hcl
      exact hE ⟨hd.1 h0, hs.1 hcl.1.1, ht.1 hcl.1.2, hv.1 hcl.2⟩
  · rw [if_neg h0, if_neg]
    rintro ⟨h, -⟩; exact h0 (hd.2 h)

open Classical in
theorem dbgCb_sinks (c : Ctx) (m : Msg) :
    (dbgCb c m).logs = c.logs ++ (if c.callback = none then passing c [m] else []) ∧
    (dbgCb c m).calls = c.calls ++ (match c.callback with | some cb => (passing c [m]).map (fun m => (cb, m)) | none => []) := by
  rw [dbgCb_eq]
  cases hcb : c.callback with
  | none => by_cases hE : Enabled c m <;> simp [hE, passing]
  | some cb => by_cases hE : Enabled c m <;> simp [hE, passing]

theorem bind_masks :
    GP_CONSTANT ≠ 0#32 ∧ GP_CONSTANT &&& GP_ATTEMPTS = 0#32 ∧ GP_CONSTANT &&& WINDING_ORDER = 0#32 ∧
    GP_ATTEMPTS &&& GP_CONSTANT = 0#32 ∧ GP_ATTEMPTS ≠ 0#32 ∧ GP_ATTEMPTS &&& WINDING_ORDER = 0#32 ∧
    WINDING_ORDER &&& GP_CONSTANT = 0#32 ∧ WINDING_ORDER &&& GP_ATTEMPTS = 0#32 ∧ WINDING_ORDER ≠ 0#32 ∧
    GP_CONSTANT ≠ GP_ATTEMPTS ∧ GP_CONSTANT ≠ WINDING_ORDER ∧ GP_ATTEMPTS ≠ WINDING_ORDER := by decide

/-- `mcBindState` with the mask tests folded into the exact-value switch. -/
theorem bind_cases (c : Ctx) (info : Word) (bytes : Nat) (mem : List Byte) :
    mcBindState c info bytes (some mem) =
      if info = GP_CONSTANT ∧ bytes = 8 then bindStateImpl c GP_CONSTANT (mem.take 8)
      else if info = GP_ATTEMPTS ∧ bytes = 4 then bindStateImpl c GP_ATTEMPTS (mem.take 4)
      else if info = WINDING_ORDER ∧ bytes = 4 then bindStateImpl c WINDING_ORDER (mem.take 4)
      else (c, .invalidValue) := by
  obtain ⟨m1, m2, m3, m4, m5, m6, m7, m8, m9, n1, n2, n3⟩ := bind_masks
  by_cases h1 : info = GP_CONSTANT
  · subst h1
    by_cases hb : bytes = 8
    · subst hb; simp [mcBindState, m1, m2, m3]
    · simp [mcBindState, m1, m2, m3, hb, n1, n2]
  · by_cases h2 : info = GP_ATTEMPTS
    · subst h2
      by_cases hb : bytes = 4
      · subst hb; simp [mcBindState, m4, m5, m6, Ne.symm n1]
      · simp [mcBindState, m4, m5, m6, hb, Ne.symm n1, n3]
    · by_cases h3 : info = WINDING_ORDER
      · subst h3
        by_cases hb : bytes = 4
        · subst hb; simp [mcBindState, m7, m8, m9, Ne.symm n2, Ne.symm n3]
        · simp [mcBindState, m7, m8, m9, hb, Ne.symm n2, Ne.symm n3]
      · simp only [h1, h2, h3, false_and, if_false]
        have hb : ∀ mem', bindStateImpl c info mem' = (c, .invalidValue) := by
          intro mem'; simp [bindStateImpl, h1, h2, h3]
        unfold mcBindState
        simp only [hb]
        split
        · rfl
        · split
          · rfl
          · split <;> rfl

theorem bindImpl_sinks (c : Ctx) (info : Word) (mem : List Byte) (m : Msg)
    (h : (info = GP_CONSTANT ∧ m = ⟨SOURCE_API, TYPE_OTHER, SEVERITY_NOTIFICATION, ascii "general coords enforcement constant set to "⟩) ∨
      (info = GP_ATTEMPTS ∧ m = ⟨SOURCE_API, TYPE_OTHER, SEVERITY_NOTIFICATION, ascii "general position enforcement attempts set to "⟩) ∨
      (info = WINDING_ORDER ∧ m = ⟨SOURCE_API, TYPE_OTHER, SEVERITY_NOTIFICATION, ascii "winding-order set to "⟩)) :
    (bindStateImpl c info mem).1.logs = (dbgCb c m).logs ∧ (bindStateImpl c info mem).1.calls = (dbgCb c m).calls := by
  obtain ⟨-, -, -, -, -, -, -, -, -, n1, n2, n3⟩ := bind_masks
  rcases h with ⟨rfl, rfl⟩ | ⟨rfl, rfl⟩ | ⟨rfl, rfl⟩
  · simp only [bindStateImpl, if_true]; split <;> simp
  · simp only [bindStateImpl, if_true, Ne.symm n1, if_false]; split <;> simp
  · simp only [bindStateImpl, if_true, Ne.symm n2, Ne.symm n3, if_false]; split <;> simp

theorem step_sinks (c : Ctx) (o : Op) :
    (step c o).1.logs = c.logs ++ (if c.callback = none then passing c (notices o) else []) ∧
    (step c o).1.calls = c.calls ++
      (match c.callback with | some cb => (passing c (notices o)).map (fun m => (cb, m)) | none => []) := by
  have nil1 : (if c.callback = none then passing c [] else []) = [] := by simp [passing]
  have nil2 : (match c.callback with | some cb => (passing c []).map (fun m => (cb, m)) | none => []) = [] := by
    cases c.callback <;> simp [passing]
  cases o with
  | control s t v e =>
    simp only [step, control_cases, notices, nil1, nil2]
    split <;> simp [debugMessageControlImpl]
  | setCallback cb => simp only [notices, nil1, nil2]; cases cb <;> simp [step, mcDebugMessageCallback]
  | emit m => exact dbgCb_sinks c m
  | getLog n b l f =>
    simp only [step, mcGetDebugMessageLog, notices]
    by_cases hn : n = 0
    · simp only [hn, if_true, ne_eq, not_true_eq_false, false_and, if_false, nil1, nil2]; simp
    · by_cases hb : b = 0
      · simp only [hn, hb, if_true, if_false, ne_eq, not_true_eq_false, false_and, and_false, nil1, nil2]; simp
      · cases f with
        | false => simp [hn, hb, passing]; cases c.callback <;> simp
        | true =>
          cases l with
          | true => simp [hn, hb, passing, getDebugMessageLogImpl]; cases c.callback <;> simp
          | false =>
            simp only [hn, hb, getDebugMessageLogImpl, if_true, if_false, ne_eq, not_false_eq_true, true_and, Bool.true_eq_false]
            exact dbgCb_sinks c _
  | getInfo => simp only [step, notices, nil1, nil2]; simp
  | bind i b p =>
    cases p with
    | none =>
      simp only [notices, nil1, nil2, step, mcBindState]
      split <;> simp
    | some mem =>
      simp only [step, bind_cases, notices]
      by_cases h1 : i = GP_CONSTANT ∧ b = 8
      · rw [if_pos h1, if_pos h1]
        have := bindImpl_sinks c GP_CONSTANT (mem.take 8) _ (Or.inl ⟨rfl, rfl⟩)
        rw [this.1, this.2]; exact dbgCb_sinks c _
      · rw [if_neg h1, if_neg h1]
        by_cases h2 : i = GP_ATTEMPTS ∧ b = 4
        · rw [if_pos h2, if_pos h2]
          have := bindImpl_sinks c GP_ATTEMPTS (mem.take 4) _ (Or.inr (Or.inl ⟨rfl, rfl⟩))
          rw [this.1, this.2]; exact dbgCb_sinks c _
        · rw [if_neg h2, if_neg h2]
          by_cases h3 : i = WINDING_ORDER ∧ b = 4
          · rw [if_pos h3, if_pos h3]
            have := bindImpl_sinks c WINDING_ORDER (mem.take 4) _ (Or.inr (Or.inr ⟨rfl, rfl⟩))
            rw [this.1, this.2]; exact dbgCb_sinks c _
          · rw [if_neg h3, if_neg h3, nil1, nil2]; simp
  | storeIntersectionType => simp only [step, notices, nil1, nil2]; simp

end Mcut.Ctx
