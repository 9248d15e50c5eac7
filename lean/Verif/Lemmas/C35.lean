import Verif.Spec.C35

/-! Helper lemmas for `Props/C35.lean`. -/
namespace Mcut.Bvh

/-! ### bit smearing -/

theorem smear_step (y x w : Nat)
    (h : ∀ i, x.testBit i = true ↔ ∃ j, i ≤ j ∧ j < i + w ∧ y.testBit j = true) :
    ∀ i, (x ||| (x >>> w)).testBit i = true ↔ ∃ j, i ≤ j ∧ j < i + (w + w) ∧ y.testBit j = true := by
  intro i
  rw [Nat.testBit_or, Bool.or_eq_true, Nat.testBit_shiftRight, h, h]
  constructor
  · rintro (⟨j, h1, h2, h3⟩ | ⟨j, h1, h2, h3⟩)
    · exact ⟨j, h1, by omega, h3⟩
    · exact ⟨j, by omega, by omega, h3⟩
  · rintro ⟨j, h1, h2, h3⟩
    by_cases hj : j < i + w
    · exact Or.inl ⟨j, h1, hj, h3⟩
    · exact Or.inr ⟨j, by omega, by omega, h3⟩

/-- The or-shift cascade of `next_power_of_two` and `flp2`. -/
def smear (y : Nat) : Nat :=
  let x := y ||| (y >>> 1)
  let x := x ||| (x >>> 2)
  let x := x ||| (x >>> 4)
  let x := x ||| (x >>> 8)
  x ||| (x >>> 16)

theorem smear_testBit (y i : Nat) :
    (smear y).testBit i = true ↔ ∃ j, i ≤ j ∧ j < i + 32 ∧ y.testBit j = true := by
  have h0 : ∀ i, y.testBit i = true ↔ ∃ j, i ≤ j ∧ j < i + 1 ∧ y.testBit j = true := by
    intro i; constructor
    · intro h; exact ⟨i, by omega, by omega, h⟩
    · rintro ⟨j, h1, h2, h3⟩; rwa [show i = j by omega]
  exact smear_step y _ 16 (smear_step y _ 8 (smear_step y _ 4 (smear_step y _ 2 (smear_step y _ 1 h0)))) i

theorem smear_pos (y : Nat) (hy : y ≠ 0) (hlt : y < 2 ^ 32) : smear y = 2 ^ (Nat.log2 y + 1) - 1 := by
  apply Nat.eq_of_testBit_eq
  intro i
  rw [Nat.testBit_two_pow_sub_one, Bool.eq_iff_iff, smear_testBit, decide_eq_true_eq]
  have hm : y.testBit (Nat.log2 y) = true := by
    rw [Nat.testBit_log2 hy]
  have hlog : Nat.log2 y < 32 := by
    rw [Nat.log2_lt hy]; exact hlt
  constructor
  · rintro ⟨j, h1, -, h3⟩
    apply Classical.byContradiction
    intro hc
    have : y < 2 ^ j := by
      have := Nat.lt_log2_self (n := y)
      exact Nat.lt_of_lt_of_le this (Nat.pow_le_pow_right (by omega) (by omega))
    rw [Nat.testBit_lt_two_pow this] at h3
    simp at h3
  · intro h
    exact ⟨Nat.log2 y, by omega, by omega, hm⟩

theorem nextPowerOfTwo_eq_smear (x : Nat) : nextPowerOfTwo x = smear (x - 1) + 1 := rfl

theorem nextPowerOfTwo_spec (t : Nat) (h1 : 1 ≤ t) (h2 : t ≤ 2 ^ 32) :
    ∃ L, LeafDepth t L ∧ nextPowerOfTwo t = 2 ^ L := by
  rw [nextPowerOfTwo_eq_smear]
  by_cases h : t = 1
  · subst h; exact ⟨0, by simp [LeafDepth], by decide⟩
  · have hy : t - 1 ≠ 0 := by omega
    rw [smear_pos (t - 1) hy (by omega)]
    have hp : 0 < 2 ^ (Nat.log2 (t - 1) + 1) := Nat.two_pow_pos _
    have a := Nat.lt_log2_self (n := t - 1)
    have b := Nat.log2_self_le hy
    exact ⟨Nat.log2 (t - 1) + 1, ⟨by omega, Or.inr (by simp; omega)⟩, by omega⟩

theorem leafDepth_unique (t a b : Nat) (ha : LeafDepth t a) (hb : LeafDepth t b) (_h1 : 1 ≤ t) : a = b := by
  have key : ∀ a b, LeafDepth t a → LeafDepth t b → ¬ a < b := by
    intro a b ha hb hlt
    rcases hb.2 with h | h
    · omega
    · have : 2 ^ a ≤ 2 ^ (b - 1) := Nat.pow_le_pow_right (by omega) (by omega)
      have := ha.1
      omega
  have := key a b ha hb; have := key b a hb ha; omega

theorem nextPowerOfTwo_eq (t L : Nat) (h1 : 1 ≤ t) (h2 : t ≤ 2 ^ 32) (h : LeafDepth t L) : nextPowerOfTwo t = 2 ^ L := by
  obtain ⟨L', hL', he⟩ := nextPowerOfTwo_spec t h1 h2
  rw [he, leafDepth_unique t L' L hL' h h1]

theorem ilog2_eq (x : Nat) (h0 : x ≠ 0) (h : x < 2 ^ 32) : ilog2 x = Nat.log2 x := by
  have : Nat.log2 x < 32 := by rw [Nat.log2_lt h0]; exact h
  unfold ilog2 clz; omega

theorem leafDepth_le (t L : Nat) (h : LeafDepth t L) (k : Nat) (ht : t ≤ 2 ^ k) : L ≤ k := by
  rcases h.2 with h | h
  · omega
  · apply Classical.byContradiction
    intro hc
    have : 2 ^ k ≤ 2 ^ (L - 1) := Nat.pow_le_pow_right (by omega) (by omega)
    omega

theorem leafLevel_eq (t L : Nat) (h1 : 1 ≤ t) (h2 : t ≤ 2 ^ 31) (h : LeafDepth t L) : leafLevel t = L := by
  have hL := leafDepth_le t L h 31 h2
  unfold leafLevel
  rw [nextPowerOfTwo_eq t L h1 (by omega) h, ilog2_eq, Nat.log2_two_pow]
  · exact Nat.ne_of_gt (Nat.two_pow_pos _)
  · exact Nat.pow_lt_pow_right (by omega) (by omega)

/-! ### size law -/

theorem popcountBits_succ_of_lt (k n : Nat) (h : n < 2 ^ k) : popcountBits (k + 1) n = popcountBits k n := by
  induction k generalizing n with
  | zero => have : n = 0 := by simpa using h
            subst this; rfl
  | succ k ih =>
    have : n / 2 < 2 ^ k := by rw [Nat.pow_succ] at h; omega
    have ih := ih (n / 2) this
    simp only [popcountBits] at ih ⊢
    omega

theorem popcount_double (n b : Nat) (hb : b < 2) (h : n < 2 ^ 31) : popcount (2 * n + b) = popcount n + b := by
  unfold popcount
  rw [show popcountBits 32 (2 * n + b) = (2 * n + b) % 2 + popcountBits 31 ((2 * n + b) / 2) from rfl,
    popcountBits_succ_of_lt 31 n h]
  have e1 : (2 * n + b) % 2 = b := by omega
  have e2 : (2 * n + b) / 2 = n := by omega
  rw [e1, e2]; omega

theorem leafDepth_half (n L : Nat) (h : LeafDepth n L) (hn : 2 ≤ n) : ∃ L', L = L' + 1 ∧ LeafDepth ((n + 1) / 2) L' := by
  rcases h with ⟨h1, h2⟩
  have hL : L ≠ 0 := by rintro rfl; simp at h1; omega
  obtain ⟨L', rfl⟩ : ∃ L', L = L' + 1 := ⟨L - 1, by omega⟩
  refine ⟨L', rfl, ?_, ?_⟩
  · rw [Nat.pow_succ] at h1; omega
  · by_cases h0 : L' = 0
    · exact Or.inl h0
    · right
      have h2 : 2 ^ L' < n := by simpa using h2
      obtain ⟨m, rfl⟩ : ∃ m, L' = m + 1 := ⟨L' - 1, by omega⟩
      rw [Nat.pow_succ] at h2
      simp only [Nat.add_sub_cancel]
      omega

theorem bvhSize_law (n : Nat) (hn : 2 ≤ n) (h : n ≤ 2 ^ 31) : bvhSize n = bvhSize ((n + 1) / 2) + n := by
  obtain ⟨L, hL, he⟩ := nextPowerOfTwo_spec n (by omega) (by omega)
  obtain ⟨L', rfl, hL'⟩ := leafDepth_half n L hL hn
  have he' := nextPowerOfTwo_eq ((n + 1) / 2) L' (by omega) (by omega) hL'
  unfold bvhSize
  rw [he, he']
  have hle := hL'.1
  have hlt : 2 ^ L' - (n + 1) / 2 < 2 ^ 31 := by
    have := leafDepth_le ((n+1)/2) L' hL' 30 (by omega)
    have : 2 ^ L' ≤ 2 ^ 30 := Nat.pow_le_pow_right (by omega) this
    omega
  rw [Nat.pow_succ]
  rcases Nat.mod_two_eq_zero_or_one n with hp | hp
  · have : 2 ^ L' * 2 - n = 2 * (2 ^ L' - (n + 1) / 2) + 0 := by omega
    rw [this, popcount_double _ 0 (by omega) hlt]; omega
  · have : 2 ^ L' * 2 - n = 2 * (2 ^ L' - (n + 1) / 2) + 1 := by omega
    rw [this, popcount_double _ 1 (by omega) hlt]; omega

theorem bvhSize_ge (n : Nat) (h : 1 ≤ n) : n ≤ bvhSize n := by unfold bvhSize; omega

theorem bvhSize_one : bvhSize 1 = 1 := by decide

/-! ### float arithmetic below 2^24 -/

theorem rnd24_exact (n : Nat) (h : n ≤ 2 ^ 24) : rnd24 n = n := by
  by_cases h' : n < 2 ^ 24
  · simp [rnd24, h']
  · have : n = 2 ^ 24 := by omega
    subst this; decide

theorem floatAncestor_exact (i d : Nat) (h : i + 1 ≤ 2 ^ 24) (hd : 2 ^ d ≤ i + 1) :
    floatAncestor i d = (i + 1) / 2 ^ d - 1 := by
  unfold floatAncestor
  have e1 : rnd24 i = i := rnd24_exact i (by omega)
  have e2 : rnd24 (1 + i) = i + 1 := by rw [Nat.add_comm]; exact rnd24_exact _ h
  have e3 : rnd24 (i + 1 - 2 ^ d) = i + 1 - 2 ^ d := rnd24_exact _ (Nat.le_trans (Nat.sub_le _ _) h)
  rw [e1, e2, e3]
  have hp : 0 < 2 ^ d := Nat.two_pow_pos d
  obtain ⟨m, hm⟩ : ∃ m, i + 1 = m + 2 ^ d := ⟨i + 1 - 2 ^ d, by omega⟩
  rw [hm, Nat.add_sub_cancel, Nat.add_div_right _ hp]; rfl

/-! ### levels -/

/-- number of real nodes on level `l` -/
def levelCount (L t l : Nat) : Nat := (t - 1) / 2 ^ (L - l) + 1

theorem leftmost_eq (l : Nat) : leftmost l = 2 ^ l - 1 := by simp [leftmost, Nat.shiftLeft_eq]

theorem levelRightmost_eq (L t l : Nat) (h1 : 1 ≤ t) (ht : t ≤ 2 ^ 23) (hL : LeafDepth t L) (hl : l ≤ L) :
    levelRightmost (rightmostRealLeaf L t) L l = 2 ^ l - 1 + (levelCount L t l - 1) := by
  have hL23 := leafDepth_le t L hL 23 ht
  have hp : 2 ^ L ≤ 2 ^ 23 := Nat.pow_le_pow_right (by omega) hL23
  have hpos := Nat.two_pow_pos L
  have hd : 2 ^ (L - l) ≤ 2 ^ L := Nat.pow_le_pow_right (by omega) (by omega)
  unfold levelRightmost
  have hr : rightmostRealLeaf L t + 1 = 2 ^ L + (t - 1) := by rw [rightmostRealLeaf, leftmost_eq]; omega
  rw [floatAncestor_exact _ _ (by omega) (by omega), hr]
  have : 2 ^ L = 2 ^ (L - l) * 2 ^ l := by rw [← Nat.pow_add]; congr 1; omega
  rw [this, Nat.mul_add_div (Nat.two_pow_pos _)]
  have := Nat.two_pow_pos l
  unfold levelCount
  generalize (t - 1) / 2 ^ (L - l) = a
  generalize 2 ^ l = b at *
  clear hr hd
  omega

theorem levelCount_leaf (L t : Nat) (h : 1 ≤ t) : levelCount L t L = t := by simp [levelCount]; omega

theorem levelCount_root (L t : Nat) (h1 : 1 ≤ t) (h : LeafDepth t L) : levelCount L t 0 = 1 := by
  have := h.1
  simp [levelCount]
  omega

theorem levelCount_half (L t l : Nat) (hl : l + 1 ≤ L) : levelCount L t l = (levelCount L t (l + 1) + 1) / 2 := by
  unfold levelCount
  have : L - l = (L - (l + 1)) + 1 := by omega
  rw [this, Nat.pow_succ, ← Nat.div_div_eq_div_mul]
  omega

theorem levelCount_ge_two (L t l : Nat) (h : LeafDepth t L) (hl : 1 ≤ l) (hl' : l ≤ L) : 2 ≤ levelCount L t l := by
  unfold levelCount
  have hlt : 2 ^ (L - 1) < t := by rcases h.2 with h | h <;> omega
  have : 2 ^ (L - l) ≤ 2 ^ (L - 1) := Nat.pow_le_pow_right (by omega) (by omega)
  have : 1 ≤ (t - 1) / 2 ^ (L - l) := by
    rw [Nat.one_le_div_iff (Nat.two_pow_pos _)]; omega
  omega

theorem levelCount_le (L t l : Nat) (h1 : 1 ≤ t) : levelCount L t l ≤ t := by
  unfold levelCount
  have := Nat.div_le_self (t - 1) (2 ^ (L - l))
  omega

theorem levelCount_le_pow (L t l : Nat) (h : LeafDepth t L) (h1 : 1 ≤ t) (hl : l ≤ L) : levelCount L t l ≤ 2 ^ l := by
  unfold levelCount
  have : 2 ^ L = 2 ^ l * 2 ^ (L - l) := by rw [← Nat.pow_add]; congr 1; omega
  have h2 := h.1
  have : (t - 1) / 2 ^ (L - l) < 2 ^ l := by
    rw [Nat.div_lt_iff_lt_mul (Nat.two_pow_pos _)]; omega
  omega

theorem levelOf_eq (l k : Nat) (hl : l < 32) (hk : k < 2 ^ l) : levelOf (2 ^ l - 1 + k) = l := by
  have hp := Nat.two_pow_pos l
  have e : 2 ^ l - 1 + k + 1 = 2 ^ l + k := by omega
  have hlt : 2 ^ l + k < 2 ^ (l + 1) := by rw [Nat.pow_succ]; omega
  have h32 : 2 ^ (l + 1) ≤ 2 ^ 32 := Nat.pow_le_pow_right (by omega) (by omega)
  unfold levelOf
  rw [e, ilog2_eq _ (by omega) (by omega)]
  exact (Nat.log2_eq_iff (by omega)).2 ⟨by omega, hlt⟩

theorem levelCount_parent (L t l k : Nat) (hl : l + 1 ≤ L) (hk : k < levelCount L t (l + 1)) : k / 2 < levelCount L t l := by
  rw [levelCount_half L t l hl]; omega

/-- Real nodes are the leading `levelCount` nodes of every level. -/
theorem real_iff (L t : Nat) (h1 : 1 ≤ t) (hL : LeafDepth t L) (i : Nat) :
    Real L t i ↔ ∃ l k, l ≤ L ∧ k < levelCount L t l ∧ i = 2 ^ l - 1 + k := by
  constructor
  · have par : ∀ i j l k, l ≤ L → k < levelCount L t l → j = 2 ^ l - 1 + k → (j = 2 * i + 1 ∨ j = 2 * i + 2) →
        ∃ l k, l ≤ L ∧ k < levelCount L t l ∧ i = 2 ^ l - 1 + k := by
      intro i j l k hl hk hj hc
      have hl0 : l ≠ 0 := by
        rintro rfl
        rw [levelCount_root L t h1 hL] at hk
        simp at hj; omega
      obtain ⟨m, rfl⟩ : ∃ m, l = m + 1 := ⟨l - 1, by omega⟩
      refine ⟨m, k / 2, by omega, levelCount_parent L t m k hl hk, ?_⟩
      have := Nat.two_pow_pos m
      rw [Nat.pow_succ] at hj
      omega
    intro h
    induction h with
    | leaf k hk => exact ⟨L, k, by omega, by rw [levelCount_leaf L t h1]; exact hk, rfl⟩
    | parentL i _ ih =>
      obtain ⟨l, k, hl, hk, he⟩ := ih
      exact par i _ l k hl hk he (Or.inl rfl)
    | parentR i _ ih =>
      obtain ⟨l, k, hl, hk, he⟩ := ih
      exact par i _ l k hl hk he (Or.inr rfl)
  · rintro ⟨l, k, hl, hk, rfl⟩
    obtain ⟨d, hd⟩ : ∃ d, L = l + d := ⟨L - l, by omega⟩
    induction d generalizing l k with
    | zero =>
      have : l = L := by omega
      subst this
      rw [levelCount_leaf _ t h1] at hk
      exact Real.leaf k hk
    | succ d ih =>
      have hc : 2 * k < levelCount L t (l + 1) := by
        rw [levelCount_half L t l (by omega)] at hk; omega
      have := ih (l + 1) (2 * k) (by omega) hc (by omega)
      apply Real.parentL
      have hp := Nat.two_pow_pos l
      have e : 2 * (2 ^ l - 1 + k) + 1 = 2 ^ (l + 1) - 1 + 2 * k := by rw [Nat.pow_succ]; omega
      rw [e]; exact this

/-- Slots by level: level `l` occupies `[bvhSize (n_{l-1}), bvhSize n_l)`. -/
theorem slot_eq (L t l k : Nat) (h1 : 1 ≤ t) (ht : t ≤ 2 ^ 23) (hL : LeafDepth t L) (hl : l ≤ L) (hk : k < levelCount L t l) :
    slot t (2 ^ l - 1 + k) = bvhSize (levelCount L t l) - levelCount L t l + k := by
  have hL23 := leafDepth_le t L hL 23 ht
  have hk2 := levelCount_le_pow L t l hL h1 hl
  have hlo := levelOf_eq l k (by omega) (by omega)
  unfold slot
  rw [leafLevel_eq t L h1 (by omega) hL, hlo, levelRightmost_eq L t l h1 ht hL hl, leftmost_eq]
  unfold memIndex
  have hge := bvhSize_ge (levelCount L t l) (by omega)
  have e : 2 ^ l - 1 + (levelCount L t l - 1) - (2 ^ l - 1) + 1 = levelCount L t l := by omega
  rw [e]
  omega

theorem bvhSize_mono (L t l m : Nat) (h1 : 1 ≤ t) (ht : t ≤ 2 ^ 31) (hL : LeafDepth t L) (hlm : l < m) (hm : m ≤ L) :
    bvhSize (levelCount L t l) ≤ bvhSize (levelCount L t m) - levelCount L t m := by
  induction m with
  | zero => omega
  | succ m ih =>
    have h2 := levelCount_ge_two L t (m + 1) hL (by omega) hm
    have hle := levelCount_le L t (m + 1) h1
    have law := bvhSize_law (levelCount L t (m + 1)) h2 (by omega)
    rw [← levelCount_half L t m hm] at law
    by_cases h : l = m
    · subst h; omega
    · have := ih (by omega) (by omega)
      omega

theorem slot_cover (L t : Nat) (h1 : 1 ≤ t) (ht : t ≤ 2 ^ 31) (hL : LeafDepth t L) (m : Nat) (hm : m ≤ L) (s : Nat)
    (hs : s < bvhSize (levelCount L t m)) :
    ∃ l k, l ≤ m ∧ k < levelCount L t l ∧ s = bvhSize (levelCount L t l) - levelCount L t l + k := by
  induction m with
  | zero =>
    have h0 := levelCount_root L t h1 hL
    rw [h0, bvhSize_one] at hs
    exact ⟨0, 0, by omega, by omega, by rw [h0, bvhSize_one]; omega⟩
  | succ m ih =>
    have h2 := levelCount_ge_two L t (m + 1) hL (by omega) hm
    have hle := levelCount_le L t (m + 1) h1
    have law := bvhSize_law (levelCount L t (m + 1)) h2 (by omega)
    rw [← levelCount_half L t m hm] at law
    by_cases h : s < bvhSize (levelCount L t m)
    · obtain ⟨l, k, a, b, c⟩ := ih (by omega) h
      exact ⟨l, k, by omega, b, c⟩
    · exact ⟨m + 1, s - bvhSize (levelCount L t m), by omega, by omega, by omega⟩

theorem parent_iter (d i : Nat) (h : 2 ^ d ≤ i + 1) : (parent^[d]) i = (i + 1) / 2 ^ d - 1 := by
  induction d generalizing i with
  | zero => simp
  | succ d ih =>
    rw [Nat.pow_succ] at h
    have hp := Nat.two_pow_pos d
    rw [Function.iterate_succ_apply, ih (parent i) (by unfold parent; omega), Nat.pow_succ, Nat.mul_comm, ← Nat.div_div_eq_div_mul]
    congr 2
    unfold parent; omega

theorem isPowerOfTwo_pow (a : Nat) : isPowerOfTwo (2 ^ a) = true := by
  unfold isPowerOfTwo
  have hp := Nat.two_pow_pos a
  have : 2 ^ a &&& (2 ^ a - 1) = 0 := by
    rw [Nat.and_two_pow_sub_one_eq_mod]; simp
  simp [this]

end Mcut.Bvh
