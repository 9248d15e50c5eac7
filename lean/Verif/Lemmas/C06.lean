import Verif.Spec.C06

/-! Helper lemmas for `Props/C06.lean`. -/
namespace Mcut.Ctx

theorem leVal_lt (bs : List Byte) : leVal bs < 256 ^ bs.length := by
  induction bs with
  | nil => simp [leVal]
  | cons b bs ih =>
    have := b.isLt
    simp only [leVal, List.length_cons, Nat.pow_succ]
    omega

theorem leBytes_leVal (bs : List Byte) : leBytes bs.length (leVal bs) = bs := by
  induction bs with
  | nil => rfl
  | cons b bs ih =>
    have hb := b.isLt
    simp only [List.length_cons, leBytes, leVal]
    have h1 : (b.toNat + 256 * leVal bs) / 256 = leVal bs := by omega
    rw [h1, ih]
    congr 1
    apply BitVec.eq_of_toNat_eq
    simp only [BitVec.toNat_ofNat]
    omega

theorem leBytes_length (k n : Nat) : (leBytes k n).length = k := by
  induction k generalizing n with
  | zero => rfl
  | succ k ih => simp [leBytes, ih]

theorem leVal64 (mem : List Byte) (h : mem.length = 8) : (BitVec.ofNat 64 (leVal mem)).toNat = leVal mem := by
  have := leVal_lt mem
  rw [h] at this
  simp only [BitVec.toNat_ofNat]
  exact Nat.mod_eq_of_lt (by simpa using this)

theorem leVal32 (mem : List Byte) (h : mem.length = 4) : (BitVec.ofNat 32 (leVal mem)).toNat = leVal mem := by
  have := leVal_lt mem
  rw [h] at this
  simp only [BitVec.toNat_ofNat]
  exact Nat.mod_eq_of_lt (by simpa using this)

theorem ofNat32_eq (mem : List Byte) (h : mem.length = 4) (w : Word) :
    BitVec.ofNat 32 (leVal mem) = w ↔ leVal mem = w.toNat := by
  have hv := leVal32 mem h
  exact ⟨fun h => by rw [← hv, h], fun h => BitVec.eq_of_toNat_eq (by rw [hv, h])⟩

/-- Which calls succeed. -/
theorem bind_ok_iff (c : Ctx) (info : Word) (mem : List Byte) :
    (mcBindState c info mem.length (some mem)).2 = .noError ↔ ValueAccepted info mem := by
  obtain ⟨-, -, -, -, -, -, -, -, -, n1, n2, n3⟩ := bind_masks
  rw [bind_cases]
  unfold ValueAccepted stateSize
  by_cases h1 : info = GP_CONSTANT
  · subst h1
    by_cases hl : mem.length = 8
    · simp only [true_and, hl, if_true, bindStateImpl, List.take_of_length_le (Nat.le_of_eq hl), n1, n2, false_and, or_false]
      cases leZero (BitVec.ofNat 64 (leVal mem)) <;> simp
    · simp [hl, n1, n2]
  · by_cases h2 : info = GP_ATTEMPTS
    · subst h2
      by_cases hl : mem.length = 4
      · simp only [true_and, hl, if_true, bindStateImpl, List.take_of_length_le (Nat.le_of_eq hl), Ne.symm n1, n3, false_and,
          or_false, false_or, if_false, leVal32 mem hl]
        by_cases hv : leVal mem = 0
        · simp [hv]
        · have : ¬ leVal mem < 1 := by omega
          simp [hv]
      · simp [hl, Ne.symm n1, n3]
    · by_cases h3 : info = WINDING_ORDER
      · subst h3
        by_cases hl : mem.length = 4
        · have e1 := ofNat32_eq mem hl WINDING_AS_GIVEN
          have e2 := ofNat32_eq mem hl WINDING_REVERSED
          have v1 : WINDING_AS_GIVEN.toNat = 1 := by decide
          have v2 : WINDING_REVERSED.toNat = 2 := by decide
          rw [v1] at e1; rw [v2] at e2
          simp only [true_and, hl, if_true, bindStateImpl, List.take_of_length_le (Nat.le_of_eq hl), Ne.symm n2, Ne.symm n3,
            false_and, false_or, if_false, ne_eq, e1, e2]
          by_cases hv : leVal mem = 1
          · simp [hv]
          · by_cases hv2 : leVal mem = 2
            · simp [hv2]
            · simp [hv, hv2]
        · simp [hl, Ne.symm n2, Ne.symm n3]
      · simp [h1, h2, h3]

theorem bind_value (c : Ctx) (info : Word) (mem : List Byte) (h : ValueAccepted info mem) :
    stateBytes (mcBindState c info mem.length (some mem)).1 info = mem := by
  obtain ⟨-, -, -, -, -, -, -, -, -, n1, n2, n3⟩ := bind_masks
  obtain ⟨hl, h⟩ := h
  rcases h with ⟨rfl, hv⟩ | ⟨rfl, hv⟩ | ⟨rfl, hv⟩
  · have hl : mem.length = 8 := by simpa [stateSize] using hl
    rw [bind_cases]
    simp only [hl, and_self, if_true, List.take_of_length_le (Nat.le_of_eq hl), bindStateImpl, hv, stateBytes, Bool.false_eq_true, if_false,
      leVal64 mem hl]
    rw [← hl]; exact leBytes_leVal mem
  · have hl : mem.length = 4 := by simpa [stateSize, Ne.symm n1] using hl
    have hv' : ¬ leVal mem < 1 := by omega
    rw [bind_cases]
    simp only [hl, true_and, if_true, List.take_of_length_le (Nat.le_of_eq hl), bindStateImpl, stateBytes, leVal32 mem hl, Ne.symm n1,
      false_and, if_false, hv']
    rw [← hl]; exact leBytes_leVal mem
  · have hl : mem.length = 4 := by simpa [stateSize, Ne.symm n2] using hl
    have e1 := ofNat32_eq mem hl WINDING_AS_GIVEN
    have e2 := ofNat32_eq mem hl WINDING_REVERSED
    have v1 : WINDING_AS_GIVEN.toNat = 1 := by decide
    have v2 : WINDING_REVERSED.toNat = 2 := by decide
    rw [v1] at e1; rw [v2] at e2
    have hne : ¬ (¬ leVal mem = 1 ∧ ¬ leVal mem = 2) := by omega
    rw [bind_cases]
    simp only [hl, true_and, if_true, List.take_of_length_le (Nat.le_of_eq hl), bindStateImpl, stateBytes, leVal32 mem hl, Ne.symm n2,
      Ne.symm n3, false_and, if_false, ne_eq, e1, e2, hne]
    rw [← hl]; exact leBytes_leVal mem

/-- `bytes` argument and the region: only the first `bytes` bytes matter. -/
theorem bind_take (c : Ctx) (info : Word) (b : Nat) (mem : List Byte) (hb : b ≤ mem.length) :
    mcBindState c info b (some mem) = mcBindState c info (mem.take b).length (some (mem.take b)) := by
  rw [bind_cases, bind_cases, List.length_take, Nat.min_eq_left hb]
  by_cases h1 : info = GP_CONSTANT ∧ b = 8
  · simp [h1, List.take_take]
  · by_cases h2 : info = GP_ATTEMPTS ∧ b = 4
    · simp [h2, List.take_take]
    · by_cases h3 : info = WINDING_ORDER ∧ b = 4
      · simp [h3, List.take_take]
      · simp [h1, h2, h3]

/-- A bind leaves all other bindable states alone, and a failing bind leaves all alone. -/
theorem bind_other (c : Ctx) (i : Word) (b : Nat) (p : Option (List Byte)) :
    ((mcBindState c i b p).2 ≠ .noError ∨ i ≠ GP_CONSTANT → (mcBindState c i b p).1.gpConstant = c.gpConstant) ∧
    ((mcBindState c i b p).2 ≠ .noError ∨ i ≠ GP_ATTEMPTS → (mcBindState c i b p).1.gpAttempts = c.gpAttempts) ∧
    ((mcBindState c i b p).2 ≠ .noError ∨ i ≠ WINDING_ORDER → (mcBindState c i b p).1.winding = c.winding) := by
  have hd := dbgCb_filters c
  cases p with
  | none => simp only [mcBindState]; split <;> simp
  | some mem =>
    rw [bind_cases]
    obtain ⟨-, -, -, -, -, -, -, -, -, n1, n2, n3⟩ := bind_masks
    by_cases h1 : i = GP_CONSTANT ∧ b = 8
    · obtain ⟨rfl, rfl⟩ := h1
      simp only [and_self, if_true, bindStateImpl]
      split <;> simp [hd]
    · rw [if_neg h1]
      by_cases h2 : i = GP_ATTEMPTS ∧ b = 4
      · obtain ⟨rfl, rfl⟩ := h2
        simp only [and_self, if_true, bindStateImpl, Ne.symm n1, if_false]
        split <;> simp [hd]
      · rw [if_neg h2]
        by_cases h3 : i = WINDING_ORDER ∧ b = 4
        · obtain ⟨rfl, rfl⟩ := h3
          simp only [and_self, if_true, bindStateImpl, Ne.symm n2, Ne.symm n3, if_false]
          split <;> simp [hd]
        · rw [if_neg h3]; simp

theorem getLog_state (c : Ctx) (n b : Nat) (l f : Bool) :
    (mcGetDebugMessageLog c n b l f).1.gpConstant = c.gpConstant ∧
    (mcGetDebugMessageLog c n b l f).1.gpAttempts = c.gpAttempts ∧
    (mcGetDebugMessageLog c n b l f).1.winding = c.winding := by
  have hd := dbgCb_filters c
  unfold mcGetDebugMessageLog getDebugMessageLogImpl
  simp only
  repeat' split
  all_goals simp [hd]

theorem stateBytes_congr (c c' : Ctx) (info : Word) (h1 : c'.gpConstant = c.gpConstant) (h2 : c'.gpAttempts = c.gpAttempts)
    (h3 : c'.winding = c.winding) : stateBytes c' info = stateBytes c info := by simp [stateBytes, h1, h2, h3]

theorem step_state (c : Ctx) (o : Op) (hwf : WellFormed o) (info : Word) (hB : Bindable info) :
    stateBytes (step c o).1 info = ((binds c info o).getD (stateBytes c info)) := by
  obtain ⟨-, -, -, -, -, -, -, -, -, n1, n2, n3⟩ := bind_masks
  cases o with
  | control s t v e => simp only [step, control_cases, binds]; split <;> rfl
  | setCallback cb => cases cb <;> rfl
  | emit m =>
    have := dbgCb_filters c m
    exact stateBytes_congr c _ info this.2.2.2.2.2.1 this.2.2.2.2.2.2.1 this.2.2.2.2.2.2.2.1
  | getLog n b l f =>
    have := getLog_state c n b l f
    exact stateBytes_congr c _ info this.1 this.2.1 this.2.2
  | getInfo => rfl
  | storeIntersectionType => rfl
  | bind i b p =>
    have ho := bind_other c i b p
    cases p with
    | none =>
      have hne : (mcBindState c i b none).2 ≠ .noError := by simp only [mcBindState]; split <;> simp
      exact stateBytes_congr c _ info (ho.1 (Or.inl hne)) (ho.2.1 (Or.inl hne)) (ho.2.2 (Or.inl hne))
    | some mem =>
      simp only [binds, step]
      by_cases hok : (mcBindState c i b (some mem)).2 = .noError
      · by_cases hi : i = info
        · subst hi
          rw [if_pos ⟨rfl, hok⟩]
          have hb : b ≤ mem.length := hwf
          rw [bind_take c i b mem hb] at hok ⊢
          exact bind_value c i _ ((bind_ok_iff c i _).1 hok)
        · rw [if_neg (by simp [hi])]
          rcases hB with rfl | rfl | rfl
          · simp [stateBytes, ho.1 (Or.inr hi)]
          · simp [stateBytes, ho.2.1 (Or.inr hi), Ne.symm n1]
          · simp [stateBytes, ho.2.2 (Or.inr hi), Ne.symm n2, Ne.symm n3]
      · rw [if_neg (by simp [hok])]
        exact stateBytes_congr c _ info (ho.1 (Or.inl hok)) (ho.2.1 (Or.inl hok)) (ho.2.2 (Or.inl hok))

end Mcut.Ctx
