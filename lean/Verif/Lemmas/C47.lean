import Verif.Spec.C47

/-! Helper lemmas for `Props/C47.lean`. -/
namespace Mcut.Morton

theorem expandBits_eq (v : Nat) (h : v < 1024) : expandBits v = spread 10 v := by
  have : ∀ v : Fin 1024, expandBits v.val = spread 10 v.val := by decide +kernel
  exact this ⟨v, h⟩

theorem spread_lt (n v : Nat) : 7 * spread n v < 8 ^ n := by
  induction n generalizing v with
  | zero => simp [spread]
  | succ n ih =>
    have := ih (v / 2)
    rw [Nat.pow_succ, spread]; omega

theorem spread_mono (n v w : Nat) (h : v ≤ w) (hw : w < 2 ^ n) : spread n v ≤ spread n w := by
  induction n generalizing v w with
  | zero => simp [spread]
  | succ n ih =>
    rw [Nat.pow_succ] at hw
    simp only [spread]
    by_cases he : v / 2 = w / 2
    · rw [he]; omega
    · have a := spread_strict n (v / 2) (w / 2) (by omega) (by omega)
      omega
where
  spread_strict (n v w : Nat) (h : v < w) (hw : w < 2 ^ n) : spread n v < spread n w := by
    induction n generalizing v w with
    | zero => omega
    | succ n ih =>
      rw [Nat.pow_succ] at hw
      simp only [spread]
      by_cases he : v / 2 = w / 2
      · rw [he]; omega
      · have a := ih (v / 2) (w / 2) (by omega) (by omega)
        omega

/-- The interleaved code before the 32-bit truncation. -/
def inter (n x y z : Nat) : Nat := spread n x * 4 + spread n y * 2 + spread n z

theorem inter_succ (n x y z : Nat) :
    inter (n + 1) x y z = (x % 2 * 4 + y % 2 * 2 + z % 2) + 8 * inter n (x / 2) (y / 2) (z / 2) := by
  simp only [inter, spread]; omega

theorem inter_lt (n x y z : Nat) : inter n x y z < 8 ^ n := by
  have := spread_lt n x; have := spread_lt n y; have := spread_lt n z
  have hp : 0 < 8 ^ n := Nat.pow_pos (by omega)
  unfold inter; omega

theorem mortonCode_eq (x y z : Nat) (hx : x < 1024) (hy : y < 1024) (hz : z < 1024) : mortonCode x y z = inter 10 x y z := by
  unfold mortonCode
  rw [expandBits_eq x hx, expandBits_eq y hy, expandBits_eq z hz]
  have := inter_lt 10 x y z
  unfold inter at *
  rw [Nat.mod_eq_of_lt (by omega)]

theorem div8_testBit (m r k : Nat) (hr : r < 8) : (r + 8 * m).testBit (k + 3) = m.testBit k := by
  rw [Nat.testBit_add]
  congr 1; omega

theorem low_testBit (m r k : Nat) (hk : k < 3) : (r + 8 * m).testBit k = r.testBit k := by
  have : k = 0 ∨ k = 1 ∨ k = 2 := by omega
  rcases this with rfl | rfl | rfl
  · simp only [Nat.testBit_zero]; congr 1; apply propext; omega
  · simp only [Nat.testBit_succ, Nat.testBit_zero]; congr 1; apply propext; omega
  · simp only [Nat.testBit_succ, Nat.testBit_zero]; congr 1; apply propext; omega

theorem low_bits (a b c : Nat) (ha : a < 2) (hb : b < 2) (hc : c < 2) :
    (a * 4 + b * 2 + c).testBit 0 = decide (c = 1) ∧ (a * 4 + b * 2 + c).testBit 1 = decide (b = 1) ∧
    (a * 4 + b * 2 + c).testBit 2 = decide (a = 1) := by
  have : a = 0 ∨ a = 1 := by omega
  have : b = 0 ∨ b = 1 := by omega
  have : c = 0 ∨ c = 1 := by omega
  rcases ‹a = 0 ∨ a = 1› with rfl | rfl <;> rcases ‹b = 0 ∨ b = 1› with rfl | rfl <;> rcases ‹c = 0 ∨ c = 1› with rfl | rfl <;> decide

theorem inter_testBit (n x y z i : Nat) (hi : i < n) :
    (inter n x y z).testBit (3 * i) = z.testBit i ∧ (inter n x y z).testBit (3 * i + 1) = y.testBit i ∧
    (inter n x y z).testBit (3 * i + 2) = x.testBit i := by
  induction n generalizing x y z i with
  | zero => omega
  | succ n ih =>
    rw [inter_succ]
    have hlow := low_bits (x % 2) (y % 2) (z % 2) (by omega) (by omega) (by omega)
    cases i with
    | zero =>
      rw [low_testBit _ _ _ (by omega), low_testBit _ _ _ (by omega), low_testBit _ _ _ (by omega)]
      simp only [Nat.testBit_zero]
      exact hlow
    | succ i =>
      rw [show 3 * (i + 1) = 3 * i + 3 by omega, show 3 * i + 3 + 1 = (3 * i + 1) + 3 by omega,
        show 3 * i + 3 + 2 = (3 * i + 2) + 3 by omega,
        div8_testBit _ _ _ (by omega), div8_testBit _ _ _ (by omega), div8_testBit _ _ _ (by omega)]
      rw [Nat.testBit_succ z, Nat.testBit_succ y, Nat.testBit_succ x]
      exact ih _ _ _ i (by omega)

end Mcut.Morton
