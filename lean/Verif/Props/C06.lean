import Verif.Lemmas.C06

/-!
# C06 — mcBindState / mcGetInfo round trip and rejection atomicity
-/
namespace Mcut.Ctx

/-- A bind succeeds exactly for a bindable state, the right size and an accepted value (so stored values are always accepted values). -/
theorem C06_bind_accepts (c : Ctx) (info : Word) (mem : List Byte) :
    (mcBindState c info mem.length (some mem)).2 = .noError ↔ ValueAccepted info mem := bind_ok_iff c info mem

/-- Every other bind is refused with MC_INVALID_VALUE and changes no setting: only a debug notification may be recorded. -/
theorem C06_rejected_bind (c : Ctx) (info : Word) (bytes : Nat) (pMem : Option (List Byte))
    (h : (mcBindState c info bytes pMem).2 ≠ .noError) :
    (mcBindState c info bytes pMem).2 = .invalidValue ∧
    { (mcBindState c info bytes pMem).1 with logs := c.logs, calls := c.calls } = c := by
  have ho := bind_other c info bytes pMem
  have hf := bind_filters c info bytes pMem
  refine ⟨?_, ?_⟩
  · cases pMem with
    | none => simp only [mcBindState]; split <;> rfl
    | some mem =>
      rw [bind_cases] at h ⊢
      revert h
      simp only [bindStateImpl]
      repeat' split
      all_goals simp
  · cases c
    simp only [Ctx.mk.injEq] at ho hf ⊢
    simp [ho.1 (Or.inl h), ho.2.1 (Or.inl h), ho.2.2 (Or.inl h), hf]

/-- Round trip over arbitrary histories, for the two states that can be queried: mcGetInfo writes exactly the bytes of the most recent
successful bind of that state, or the initial value if there was none. (Partial: the third bindable state, the winding order, cannot be
queried at all, see `C06_winding_order_query_fails`.) -/
theorem C06_round_trip_partial (c : Ctx) (ops : List Op) (hwf : ∀ o ∈ ops, WellFormed o) (info : Word)
    (hinfo : info = GP_CONSTANT ∨ info = GP_ATTEMPTS) (bytes : Nat) (pNumBytes : Bool) :
    mcGetInfo (run c ops) info bytes true pNumBytes =
      ⟨.noError, none, ((boundValues info c ops).getLast?).getD (stateBytes c info), false⟩ := by
  have hB : Bindable info := by rcases hinfo with h | h <;> simp [Bindable, h]
  have key : ∀ (ops : List Op) (c : Ctx), (∀ o ∈ ops, WellFormed o) →
      stateBytes (run c ops) info = ((boundValues info c ops).getLast?).getD (stateBytes c info) := by
    intro ops
    induction ops with
    | nil => intro c _; rfl
    | cons o ops ih =>
      intro c hwf
      have hs := step_state c o (hwf o (by simp)) info hB
      have ih := ih (step c o).1 (fun o' h' => hwf o' (by simp [h']))
      simp only [boundValues, getLast?_getD_cons]
      rw [hs] at ih
      exact ih
  rw [← key ops c hwf]
  rcases hinfo with rfl | rfl
  · have hm : GP_CONSTANT &&& CONTEXT_FLAGS = 0#32 ∧ GP_CONSTANT ≠ 0#32 ∧ GP_CONSTANT ≠ CONTEXT_FLAGS ∧
        GP_CONSTANT ≠ MAX_DEBUG_MESSAGE_LENGTH := by decide
    simp [mcGetInfo, getInfoImpl, hm, stateBytes]
  · have hm : GP_ATTEMPTS &&& CONTEXT_FLAGS = 0#32 ∧ GP_ATTEMPTS ≠ 0#32 ∧ GP_ATTEMPTS ≠ CONTEXT_FLAGS ∧
        GP_ATTEMPTS ≠ MAX_DEBUG_MESSAGE_LENGTH ∧ GP_ATTEMPTS ≠ GP_CONSTANT := by decide
    simp [mcGetInfo, getInfoImpl, hm, stateBytes]

/-- The stored winding order still follows the most recent successful bind (it is what face queries use). -/
theorem C06_winding_order_stored (c : Ctx) (ops : List Op) (hwf : ∀ o ∈ ops, WellFormed o) :
    leBytes 4 (run c ops).winding.toNat =
      ((boundValues WINDING_ORDER c ops).getLast?).getD (leBytes 4 c.winding.toNat) := by
  have hs : ∀ c, stateBytes c WINDING_ORDER = leBytes 4 c.winding.toNat := by
    intro c
    have : WINDING_ORDER ≠ GP_CONSTANT ∧ WINDING_ORDER ≠ GP_ATTEMPTS := by decide
    simp [stateBytes, this]
  rw [← hs, ← hs]
  induction ops generalizing c with
  | nil => rfl
  | cons o ops ih =>
    have h1 := step_state c o (hwf o (by simp)) WINDING_ORDER (by simp [Bindable])
    have ih := ih (step c o).1 (fun o' h' => hwf o' (by simp [h']))
    simp only [boundValues, getLast?_getD_cons]
    rw [h1] at ih
    exact ih

/-- The bound winding order can never be read back: every query of it is refused. -/
theorem C06_winding_order_query_fails (c : Ctx) (bytes : Nat) (pMem pNumBytes : Bool) :
    (mcGetInfo c WINDING_ORDER bytes pMem pNumBytes).result = .invalidValue := by
  have hm : WINDING_ORDER &&& CONTEXT_FLAGS = 0#32 ∧ WINDING_ORDER &&& MAX_DEBUG_MESSAGE_LENGTH = 0#32 ∧
    WINDING_ORDER &&& GP_CONSTANT = 0#32 ∧ WINDING_ORDER &&& GP_ATTEMPTS = 0#32 ∧
    WINDING_ORDER &&& DISPATCH_INTERSECTION_TYPE = 0#32 := by decide
  unfold mcGetInfo
  simp [hm, invalid]

/-- A NaN is accepted as general position enforcement constant: the documented domain (a small positive real number) is not enforced. -/
theorem C06_nan_accepted_fails :
    ∃ mem : List Byte, isNaN (BitVec.ofNat 64 (leVal mem)) = true ∧
      ∀ c, (mcBindState c GP_CONSTANT mem.length (some mem)).2 = .noError := by
  refine ⟨[0, 0, 0, 0, 0, 0, 0xF8#8, 0x7F#8], by decide, fun c => ?_⟩
  rw [bind_ok_iff]
  exact ⟨by decide, Or.inl ⟨rfl, by decide⟩⟩

/-- Accepted non-NaN constants are positive, accepted counts at least one, accepted winding orders documented. -/
theorem C06_accepted_domain_partial (info : Word) (mem : List Byte) (h : ValueAccepted info mem) :
    (info = GP_CONSTANT → isNaN (BitVec.ofNat 64 (leVal mem)) = false → 0 < leVal mem ∧ leVal mem < 2 ^ 63) ∧
    (info = GP_ATTEMPTS → 1 ≤ leVal mem) ∧
    (info = WINDING_ORDER → leVal mem = WINDING_AS_GIVEN.toNat ∨ leVal mem = WINDING_REVERSED.toNat) := by
  obtain ⟨-, -, -, -, -, -, -, -, -, n1, n2, n3⟩ := bind_masks
  obtain ⟨hl, h⟩ := h
  refine ⟨?_, ?_, ?_⟩
  · rintro rfl hn
    have hl : mem.length = 8 := by simpa [stateSize] using hl
    have hz : leZero (BitVec.ofNat 64 (leVal mem)) = false := by simpa [n1, n2] using h
    have hv := leVal64 mem hl
    simp [leZero, hn, hv] at hz
    have hlt : ¬ leVal mem ≥ 2 ^ 63 := by simpa using hz.2
    have : leVal mem % 2 ^ 63 = leVal mem := Nat.mod_eq_of_lt (by omega)
    have h0 : leVal mem % 2 ^ 63 ≠ 0 := by simpa using hz.1
    omega
  · rintro rfl
    have : leVal mem ≠ 0 := by simpa [Ne.symm n1, n3] using h
    omega
  · rintro rfl
    have : leVal mem = 1 ∨ leVal mem = 2 := by simpa [Ne.symm n2, Ne.symm n3] using h
    exact this

/-- Non-vacuity: bind 0.5, then a refused bind of -1.0, then read back 0.5. -/
example :
    let half : List Byte := [0, 0, 0, 0, 0, 0, 0xE0#8, 0x3F#8]
    let minusOne : List Byte := [0, 0, 0, 0, 0, 0, 0xF0#8, 0xBF#8]
    ValueAccepted GP_CONSTANT half ∧
    (mcGetInfo (run (Ctx.create 0) [.bind GP_CONSTANT 8 (some half), .bind GP_CONSTANT 8 (some minusOne)])
      GP_CONSTANT 8 true false).data = half := by
  refine ⟨⟨by decide, Or.inl ⟨rfl, by decide⟩⟩, by decide⟩

end Mcut.Ctx
