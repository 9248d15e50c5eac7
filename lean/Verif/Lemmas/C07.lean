import Verif.Spec.C07

/-! Helper lemmas for `Props/C07.lean`. -/
namespace Mcut.Ctx

theorem infoSize_inv (info : Word) (n : Nat) (h : infoSize info = some n) :
    (info = CONTEXT_FLAGS ∧ n = 4) ∨ (info = MAX_DEBUG_MESSAGE_LENGTH ∧ n = 8) ∨ (info = GP_CONSTANT ∧ n = 8) ∨
    (info = GP_ATTEMPTS ∧ n = 4) ∨ (info = DISPATCH_INTERSECTION_TYPE ∧ n = 4) := by
  unfold infoSize at h
  repeat' split at h
  all_goals simp_all

theorem infoSize_none (info : Word) (h : infoSize info = none) :
    info ≠ CONTEXT_FLAGS ∧ info ≠ MAX_DEBUG_MESSAGE_LENGTH ∧ info ≠ GP_CONSTANT ∧ info ≠ GP_ATTEMPTS ∧
    info ≠ DISPATCH_INTERSECTION_TYPE := by
  unfold infoSize at h
  repeat' split at h
  all_goals simp_all

theorem getInfo_none (c : Ctx) (info : Word) (h : infoSize info = none) (bytes : Nat) (p q : Bool) :
    mcGetInfo c info bytes p q = invalid := by
  obtain ⟨h1, h2, h3, h4, h5⟩ := infoSize_none info h
  by_cases h6 : info = WINDING_ORDER
  · subst h6
    have hm : WINDING_ORDER &&& CONTEXT_FLAGS = 0#32 ∧ WINDING_ORDER &&& MAX_DEBUG_MESSAGE_LENGTH = 0#32 ∧
      WINDING_ORDER &&& GP_CONSTANT = 0#32 ∧ WINDING_ORDER &&& GP_ATTEMPTS = 0#32 ∧
      WINDING_ORDER &&& DISPATCH_INTERSECTION_TYPE = 0#32 := by decide
    unfold mcGetInfo
    simp [hm]
  · have : getInfoImpl c info bytes p q = invalid := by simp [getInfoImpl, h1, h2, h3, h4, h5, h6]
    unfold mcGetInfo
    rw [this]
    repeat' split
    all_goals rfl

theorem info_masks :
    CONTEXT_FLAGS ≠ 0#32 ∧ MAX_DEBUG_MESSAGE_LENGTH ≠ 0#32 ∧ GP_CONSTANT ≠ 0#32 ∧ GP_ATTEMPTS ≠ 0#32 ∧
    DISPATCH_INTERSECTION_TYPE ≠ 0#32 ∧ MAX_DEBUG_MESSAGE_LENGTH &&& CONTEXT_FLAGS = 0#32 ∧
    GP_CONSTANT &&& CONTEXT_FLAGS = 0#32 ∧ GP_ATTEMPTS &&& CONTEXT_FLAGS = 0#32 ∧
    DISPATCH_INTERSECTION_TYPE &&& CONTEXT_FLAGS = 0#32 ∧
    MAX_DEBUG_MESSAGE_LENGTH ≠ CONTEXT_FLAGS ∧ GP_CONSTANT ≠ CONTEXT_FLAGS ∧ GP_ATTEMPTS ≠ CONTEXT_FLAGS ∧
    DISPATCH_INTERSECTION_TYPE ≠ CONTEXT_FLAGS ∧ GP_CONSTANT ≠ MAX_DEBUG_MESSAGE_LENGTH ∧
    GP_ATTEMPTS ≠ MAX_DEBUG_MESSAGE_LENGTH ∧ DISPATCH_INTERSECTION_TYPE ≠ MAX_DEBUG_MESSAGE_LENGTH ∧
    GP_ATTEMPTS ≠ GP_CONSTANT ∧ DISPATCH_INTERSECTION_TYPE ≠ GP_CONSTANT ∧
    DISPATCH_INTERSECTION_TYPE ≠ GP_ATTEMPTS ∧ DISPATCH_INTERSECTION_TYPE ≠ WINDING_ORDER := by decide

theorem foldl_max_le (l : List Msg) (a : Nat) :
    a ≤ l.foldl (fun m x => max m x.str.length) a ∧ ∀ x ∈ l, x.str.length ≤ l.foldl (fun m x => max m x.str.length) a := by
  induction l generalizing a with
  | nil => simp
  | cons y l ih =>
    have := ih (max a y.str.length)
    simp only [List.foldl_cons, List.mem_cons]
    refine ⟨by omega, ?_⟩
    rintro x (rfl | hx)
    · omega
    · exact this.2 x hx

theorem foldl_max_mem (l : List Msg) (a : Nat) :
    l.foldl (fun m x => max m x.str.length) a = a ∨ ∃ x ∈ l, l.foldl (fun m x => max m x.str.length) a = x.str.length := by
  induction l generalizing a with
  | nil => simp
  | cons y l ih =>
    simp only [List.foldl_cons, List.mem_cons]
    rcases ih (max a y.str.length) with h | ⟨x, hx, h⟩
    · by_cases hle : y.str.length ≤ a
      · left; rw [h]; omega
      · right; exact ⟨y, Or.inl rfl, by rw [h]; omega⟩
    · right; exact ⟨x, Or.inr hx, h⟩

end Mcut.Ctx
