import Verif.Lemmas.C47

/-!
# C47 — Morton codes interleave coordinates
-/
namespace Mcut.Morton

/-- **C47**: the code is a 30-bit number whose bits are the bits of the coordinates, interleaved: bit `3i+2` is bit `i` of x, bit `3i+1` of y, bit `3i` of z. -/
theorem C47_interleaves (x y z i : Nat) (hx : x < 1024) (hy : y < 1024) (hz : z < 1024) (hi : i < 10) :
    mortonCode x y z < 2 ^ 30 ∧
    (mortonCode x y z).testBit (3 * i + 2) = x.testBit i ∧
    (mortonCode x y z).testBit (3 * i + 1) = y.testBit i ∧
    (mortonCode x y z).testBit (3 * i) = z.testBit i := by
  rw [mortonCode_eq x y z hx hy hz]
  have h := inter_testBit 10 x y z i hi
  exact ⟨inter_lt 10 x y z, h.2.2, h.2.1, h.1⟩

/-- **C47**: different quantised positions get different codes. -/
theorem C47_injective (x y z x' y' z' : Nat) (hx : x < 1024) (hy : y < 1024) (hz : z < 1024) (hx' : x' < 1024) (hy' : y' < 1024)
    (hz' : z' < 1024) (h : mortonCode x y z = mortonCode x' y' z') : x = x' ∧ y = y' ∧ z = z' := by
  have ext : ∀ a b : Nat, a < 1024 → b < 1024 → (∀ i, i < 10 → a.testBit i = b.testBit i) → a = b := by
    intro a b ha hb hab
    apply Nat.eq_of_testBit_eq
    intro i
    by_cases hi : i < 10
    · exact hab i hi
    · have hp : 2 ^ 10 ≤ 2 ^ i := Nat.pow_le_pow_right (by omega) (by omega)
      rw [Nat.testBit_lt_two_pow (by omega), Nat.testBit_lt_two_pow (by omega)]
  refine ⟨ext _ _ hx hx' fun i hi => ?_, ext _ _ hy hy' fun i hi => ?_, ext _ _ hz hz' fun i hi => ?_⟩
  · rw [← (C47_interleaves x y z i hx hy hz hi).2.1, h, (C47_interleaves x' y' z' i hx' hy' hz' hi).2.1]
  · rw [← (C47_interleaves x y z i hx hy hz hi).2.2.1, h, (C47_interleaves x' y' z' i hx' hy' hz' hi).2.2.1]
  · rw [← (C47_interleaves x y z i hx hy hz hi).2.2.2, h, (C47_interleaves x' y' z' i hx' hy' hz' hi).2.2.2]

/-- **C47**: the code is monotone in each coordinate. -/
theorem C47_monotone (x y z x' y' z' : Nat) (hx' : x' < 1024) (hy' : y' < 1024)
    (hz' : z' < 1024) (h1 : x ≤ x') (h2 : y ≤ y') (h3 : z ≤ z') : mortonCode x y z ≤ mortonCode x' y' z' := by
  rw [mortonCode_eq x y z (by omega) (by omega) (by omega), mortonCode_eq x' y' z' hx' hy' hz']
  have := spread_mono 10 x x' h1 (by omega)
  have := spread_mono 10 y y' h2 (by omega)
  have := spread_mono 10 z z' h3 (by omega)
  unfold inter; omega

/-- **C47**: the quantisation accepts every float, including NaN and infinities, and always gives a 10-bit coordinate; on numbers it is monotone and
for a position in `[0,1)` it is the number of the cell of width 1/1024 that contains it. -/
theorem C47_quantise (x : FVal) :
    quantise x < 1024 ∧
    (∀ a b : ℚ, a ≤ b → quantise (FVal.fin a) ≤ quantise (FVal.fin b)) ∧
    (∀ a : ℚ, 0 ≤ a → a < 1 → (quantise (FVal.fin a) : ℚ) / 1024 ≤ a ∧ a < ((quantise (FVal.fin a) : ℚ) + 1) / 1024) := by
  have hlt : ∀ q : ℚ, (⌊min (max q 0) 1023⌋).toNat < 1024 := by
    intro q
    have h : ⌊min (max q 0) 1023⌋ ≤ 1023 := by
      have : (⌊min (max q 0) 1023⌋ : ℚ) ≤ 1023 := (Int.floor_le _).trans (min_le_right _ _)
      exact_mod_cast this
    omega
  refine ⟨?_, ?_, ?_⟩
  · cases x with
    | nan => simp [quantise]
    | ninf => simp [quantise]
    | pinf => simp [quantise]
    | fin q => exact hlt _
  · intro a b hab
    simp only [quantise]
    apply Int.toNat_le_toNat
    apply Int.floor_le_floor
    apply min_le_min_right
    apply max_le_max_right
    linarith
  · intro a h0 h1
    simp only [quantise]
    have e1 : max (a * 1024) 0 = a * 1024 := max_eq_left (by linarith)
    rw [e1]
    have hnn : 0 ≤ ⌊min (a * 1024) 1023⌋ := by
      rw [Int.floor_nonneg]; apply le_min <;> linarith
    have hc : ((⌊min (a * 1024) 1023⌋.toNat : ℕ) : ℚ) = (⌊min (a * 1024) 1023⌋ : ℚ) := by
      have : ((⌊min (a * 1024) 1023⌋.toNat : ℕ) : ℤ) = ⌊min (a * 1024) 1023⌋ := Int.toNat_of_nonneg hnn
      exact_mod_cast congrArg (fun z : ℤ => (z : ℚ)) this
    rw [hc]
    have f1 := Int.floor_le (min (a * 1024) 1023)
    have f2 := Int.lt_floor_add_one (min (a * 1024) 1023)
    have m1 := min_le_left (a * 1024) (1023 : ℚ)
    constructor
    · rw [div_le_iff₀ (by norm_num)]; linarith
    · rw [lt_div_iff₀ (by norm_num)]
      rcases min_cases (a * 1024) (1023 : ℚ) with ⟨e, _⟩ | ⟨e, _⟩
      · rw [e] at f2 ⊢; linarith
      · rw [e]; 
        have : ((⌊(1023 : ℚ)⌋ : ℤ) : ℚ) = 1023 := by norm_num
        rw [this]; linarith

/-- **C47**: outside `[0,1)` positions are clamped to the nearest cell, infinities included; NaN goes to cell 0. -/
theorem C47_quantise_clamps : (∀ q : ℚ, q ≤ 0 → quantise (FVal.fin q) = 0) ∧ (∀ q : ℚ, 1 ≤ q → quantise (FVal.fin q) = 1023) ∧
    quantise .ninf = 0 ∧ quantise .pinf = 1023 ∧ quantise .nan = 0 := by
  refine ⟨fun q hq => ?_, fun q hq => ?_, rfl, rfl, rfl⟩
  · have : min (max (q * 1024) 0) 1023 = 0 := by
      rw [max_eq_right (by linarith), min_eq_left (by norm_num)]
    simp [quantise, this]
  · have : min (max (q * 1024) 0) 1023 = 1023 := by
      rw [max_eq_left (by linarith), min_eq_right (by linarith)]
    rw [quantise, this]
    norm_num; rfl

/-- **C47**: `morton3D` of any three floats is the interleaving of the three quantised coordinates. -/
theorem C47_morton3D (x y z : FVal) (i : Nat) (hi : i < 10) :
    morton3D x y z < 2 ^ 30 ∧
    (morton3D x y z).testBit (3 * i + 2) = (quantise x).testBit i ∧
    (morton3D x y z).testBit (3 * i + 1) = (quantise y).testBit i ∧
    (morton3D x y z).testBit (3 * i) = (quantise z).testBit i :=
  C47_interleaves _ _ _ i (C47_quantise x).1 (C47_quantise y).1 (C47_quantise z).1 hi

/-- Non-vacuity. -/
example : mortonCode 1023 0 0 = 0x24924924 ∧ mortonCode 5 3 6 = 0b101_011_110 ∧ quantise (FVal.fin (1 / 2)) = 512 ∧ quantise .nan = 0 := by
  refine ⟨by decide +kernel, by decide +kernel, ?_, rfl⟩
  norm_num [quantise]; rfl

end Mcut.Morton
