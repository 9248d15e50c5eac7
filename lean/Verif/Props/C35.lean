import Verif.Lemmas.C35

/-!
# C35 — the compact tree layout is a bijection
-/
namespace Mcut.Bvh

/-- **C35**: for every face count up to 2^23 the slots of the real nodes are in range, distinct, and fill the array exactly.
Missing: face counts above 2^23 (C35_float_rounding_fails, C35_slot_out_of_range_fails). -/
theorem C35_slots_bijective_partial (t L : Nat) (h1 : 1 ≤ t) (ht : t ≤ 2 ^ 23) (hL : LeafDepth t L) :
    (∀ i, Real L t i → slot t i < bvhSize t) ∧
    (∀ i j, Real L t i → Real L t j → slot t i = slot t j → i = j) ∧
    (∀ s, s < bvhSize t → ∃ i, Real L t i ∧ slot t i = s) := by
  have bnd : ∀ l k, l ≤ L → k < levelCount L t l →
      bvhSize (levelCount L t l) - levelCount L t l + k < bvhSize (levelCount L t l) := by
    intro l k _ hk
    have := bvhSize_ge (levelCount L t l) (by omega)
    omega
  refine ⟨?_, ?_, ?_⟩
  · intro i hi
    obtain ⟨l, k, hl, hk, rfl⟩ := (real_iff L t h1 hL i).1 hi
    rw [slot_eq L t l k h1 ht hL hl hk]
    have := bnd l k hl hk
    by_cases h : l = L
    · subst h; rwa [levelCount_leaf _ t h1] at *
    · have h2 := bvhSize_mono L t l L h1 (by omega) hL (by omega) (by omega)
      rw [levelCount_leaf _ t h1] at h2
      omega
  · intro i j hi hj he
    obtain ⟨l, k, hl, hk, rfl⟩ := (real_iff L t h1 hL i).1 hi
    obtain ⟨m, r, hm, hr, rfl⟩ := (real_iff L t h1 hL j).1 hj
    rw [slot_eq L t l k h1 ht hL hl hk, slot_eq L t m r h1 ht hL hm hr] at he
    have b1 := bnd l k hl hk
    have b2 := bnd m r hm hr
    rcases Nat.lt_trichotomy l m with h | h | h
    · have := bvhSize_mono L t l m h1 (by omega) hL h hm; omega
    · subst h; omega
    · have := bvhSize_mono L t m l h1 (by omega) hL h hl; omega
  · intro s hs
    obtain ⟨l, k, hl, hk, he⟩ := slot_cover L t h1 (by omega) hL L (le_refl _) s (by rwa [levelCount_leaf _ t h1])
    refine ⟨2 ^ l - 1 + k, (real_iff L t h1 hL _).2 ⟨l, k, hl, hk, rfl⟩, ?_⟩
    rw [slot_eq L t l k h1 ht hL hl hk, he]

/-- **C35**: the leaf level computed by the code is the depth of the smallest sufficient complete tree. -/
theorem C35_leaf_level (t : Nat) (h1 : 1 ≤ t) (ht : t ≤ 2 ^ 31) : LeafDepth t (leafLevel t) := by
  obtain ⟨L, hL, -⟩ := nextPowerOfTwo_spec t h1 (by omega)
  rw [leafLevel_eq t L h1 ht hL]; exact hL

/-- **C35**: the array size is the number of real nodes (no slot is wasted): it obeys the level recurrence of the tree. -/
theorem C35_size_recurrence (t : Nat) (h1 : 2 ≤ t) (ht : t ≤ 2 ^ 31) :
    bvhSize 1 = 1 ∧ bvhSize t = t + bvhSize ((t + 1) / 2) :=
  ⟨bvhSize_one, by rw [bvhSize_law t h1 ht]; omega⟩

/-- **C35**: `is_real_implicit_tree_node_id` decides reality of a node of the complete tree. -/
theorem C35_is_real (t L i : Nat) (h1 : 1 ≤ t) (ht : t ≤ 2 ^ 23) (hL : LeafDepth t L) (hi : i < 2 ^ (L + 1) - 1) :
    isReal i t = true ↔ Real L t i := by
  have hL23 := leafDepth_le t L hL 23 ht
  have hi0 : i + 1 ≠ 0 := by omega
  obtain ⟨l, hl⟩ : ∃ l, l = Nat.log2 (i + 1) := ⟨_, rfl⟩
  have a := Nat.lt_log2_self (n := i + 1)
  have b := Nat.log2_self_le hi0
  rw [← hl] at a b
  have hlL : l ≤ L := by
    have : 2 ^ l < 2 ^ (L + 1) := by omega
    have := (Nat.pow_lt_pow_iff_right (a := 2) (by omega)).1 this
    omega
  obtain ⟨k, hk⟩ : ∃ k, i = 2 ^ l - 1 + k := ⟨i + 1 - 2 ^ l, by omega⟩
  have hkl : k < 2 ^ l := by rw [Nat.pow_succ] at a; omega
  subst hk
  have hlo := levelOf_eq l k (by omega) hkl
  have hr := levelRightmost_eq L t l h1 ht hL hlL
  unfold isReal
  rw [leafLevel_eq t L h1 (by omega) hL, hlo]
  unfold levelRightmost at hr
  simp only [hr, Bool.or_eq_true, decide_eq_true_eq]
  have hp := Nat.two_pow_pos l
  have hpos : 1 ≤ levelCount L t l := Nat.succ_pos _
  rw [real_iff L t h1 hL]
  constructor
  · intro h
    refine ⟨l, k, hlL, ?_, rfl⟩
    rcases h with h | h
    · omega
    · have h2l : 2 ^ l = 1 := by omega
      omega
  · rintro ⟨m, r, hm, hrm, he⟩
    have hrp := levelCount_le_pow L t m hL h1 hm
    have e2 := levelOf_eq m r (by omega) (by omega)
    rw [← he, hlo] at e2
    subst e2
    left; omega

/-- **C35**: for a real node above the leaf level the left child is real, and the right child is real exactly when the comparison with the
rightmost real node of the next level used by construction and traversal says so. -/
theorem C35_children (t L i : Nat) (h1 : 1 ≤ t) (ht : t ≤ 2 ^ 23) (hL : LeafDepth t L) (hi : Real L t i) (hn : levelOf i ≠ L) :
    levelOf (2 * i + 1) = levelOf i + 1 ∧ levelOf (2 * i + 2) = levelOf i + 1 ∧ Real L t (2 * i + 1) ∧
    (Real L t (2 * i + 2) ↔ 2 * i + 2 ≤ levelRightmost (rightmostRealLeaf (leafLevel t) t) (leafLevel t) (levelOf i + 1)) := by
  have hL23 := leafDepth_le t L hL 23 ht
  obtain ⟨l, k, hl, hk, rfl⟩ := (real_iff L t h1 hL i).1 hi
  have hkp := levelCount_le_pow L t l hL h1 hl
  have hlo := levelOf_eq l k (by omega) (by omega)
  rw [hlo] at hn ⊢
  have hp := Nat.two_pow_pos l
  have hl1 : l + 1 ≤ L := by omega
  have e1 : 2 * (2 ^ l - 1 + k) + 1 = 2 ^ (l + 1) - 1 + 2 * k := by rw [Nat.pow_succ]; omega
  have e2 : 2 * (2 ^ l - 1 + k) + 2 = 2 ^ (l + 1) - 1 + (2 * k + 1) := by rw [Nat.pow_succ]; omega
  have hh := levelCount_half L t l hl1
  rw [e1, e2, leafLevel_eq t L h1 (by omega) hL, levelRightmost_eq L t (l + 1) h1 ht hL hl1,
    levelOf_eq (l + 1) (2 * k) (by omega) (by rw [Nat.pow_succ]; omega),
    levelOf_eq (l + 1) (2 * k + 1) (by omega) (by rw [Nat.pow_succ]; omega)]
  refine ⟨rfl, rfl, (real_iff L t h1 hL _).2 ⟨l + 1, 2 * k, hl1, by omega, rfl⟩, ?_⟩
  rw [real_iff L t h1 hL]
  constructor
  · rintro ⟨m, r, hm, hr, he⟩
    have hrp := levelCount_le_pow L t m hL h1 hm
    have e3 := levelOf_eq m r (by omega) (by omega)
    rw [← he, levelOf_eq (l + 1) (2 * k + 1) (by omega) (by rw [Nat.pow_succ]; omega)] at e3
    subst e3
    omega
  · intro h
    have : 1 ≤ levelCount L t (l + 1) := Nat.succ_pos _
    exact ⟨l + 1, 2 * k + 1, hl1, by omega, rfl⟩

/-- **C35**: `get_node_ancestor` is the iterated parent (nodes below 2^24, i.e. all nodes of trees with at most 2^23 faces). -/
theorem C35_ancestor (i a : Nat) (hi : i + 1 ≤ 2 ^ 24) (ha : a ≤ levelOf i) :
    nodeAncestor i (levelOf i) a = (parent^[levelOf i - a]) i := by
  unfold nodeAncestor
  have hlo : levelOf i = Nat.log2 (i + 1) := ilog2_eq _ (by omega) (by omega)
  have b := Nat.log2_self_le (n := i + 1) (by omega)
  have : 2 ^ (levelOf i - a) ≤ i + 1 := by
    rw [hlo]; exact Nat.le_trans (Nat.pow_le_pow_right (by omega) (by omega)) b
  rw [floatAncestor_exact i _ hi this, parent_iter _ _ this]

/-- **C35**: `next_power_of_two` is the least power of two that is not smaller, `flp2` the greatest that is not larger. -/
theorem C35_powers (x : Nat) (h1 : 1 ≤ x) (h : x < 2 ^ 31) :
    (∃ a, nextPowerOfTwo x = 2 ^ a ∧ x ≤ 2 ^ a ∧ ∀ b, x ≤ 2 ^ b → 2 ^ a ≤ 2 ^ b) ∧
    (∃ a, flp2 x = 2 ^ a ∧ 2 ^ a ≤ x ∧ ∀ b, 2 ^ b ≤ x → 2 ^ b ≤ 2 ^ a) := by
  constructor
  · obtain ⟨L, hL, he⟩ := nextPowerOfTwo_spec x h1 (by omega)
    exact ⟨L, he, hL.1, fun b hb => Nat.pow_le_pow_right (by omega) (leafDepth_le x L hL b hb)⟩
  · refine ⟨Nat.log2 x, ?_, Nat.log2_self_le (by omega), ?_⟩
    · have : flp2 x = smear x - (smear x >>> 1) := rfl
      rw [this, smear_pos x (by omega) (by omega), Nat.shiftRight_eq_div_pow, Nat.pow_succ]
      have := Nat.two_pow_pos (Nat.log2 x)
      omega
    · intro b hb
      apply Nat.pow_le_pow_right (by omega)
      rw [Nat.le_log2 (by omega)]; exact hb

/-- **C35**: `is_power_of_two` accepts exactly the powers of two. -/
theorem C35_is_power_of_two (x : Nat) : isPowerOfTwo x = true ↔ ∃ a, x = 2 ^ a := by
  constructor
  · intro h
    simp only [isPowerOfTwo, Bool.and_eq_true, decide_eq_true_eq] at h
    obtain ⟨h0, h⟩ := h
    refine ⟨Nat.log2 x, ?_⟩
    have a := Nat.lt_log2_self (n := x)
    have b := Nat.log2_self_le h0
    apply Classical.byContradiction
    intro hne
    have : (x &&& (x - 1)).testBit (Nat.log2 x) = true := by
      rw [Nat.testBit_and, Nat.testBit_log2 h0]
      have hx : x - 1 ≠ 0 := by
        intro h1
        have : x = 1 := by omega
        subst this; exact hne (by decide)
      have : Nat.log2 (x - 1) = Nat.log2 x := (Nat.log2_eq_iff hx).2 ⟨by omega, by omega⟩
      rw [← this, Nat.testBit_log2 hx]; rfl
    rw [h] at this; simp at this
  · rintro ⟨a, rfl⟩; exact isPowerOfTwo_pow a

/-- **C35** fails beyond 2^23 faces: with 8388611 faces the float computation of the rightmost real node of level 23 is one too small, so
the parent of the last leaf is not counted as real although it is an ancestor of a leaf. -/
theorem C35_float_rounding_fails :
    LeafDepth 8388611 24 ∧ leafLevel 8388611 = 24 ∧ Real 24 8388611 12582912 ∧ isReal 12582912 8388611 = false := by
  refine ⟨by unfold LeafDepth; decide, by decide +kernel, ?_, by decide +kernel⟩
  apply Real.parentL
  have := Real.leaf (L := 24) (t := 8388611) 8388610 (by omega)
  exact this

/-- **C35** fails beyond 2^23 faces: with 2^24 faces a leaf box is stored outside the array of `get_ostensibly_implicit_bvh_size` boxes. -/
theorem C35_slot_out_of_range_fails :
    ∃ i, Real 24 (2 ^ 24) i ∧ bvhSize (2 ^ 24) ≤ slot (2 ^ 24) i := by
  refine ⟨2 ^ 24 - 1 + 16777215, Real.leaf _ (by omega), by decide +kernel⟩

/-- Non-vacuity: a tree with five leaves. -/
example : LeafDepth 5 3 ∧ Real 3 5 11 ∧ ¬ Real 3 5 12 ∧ bvhSize 5 = 11 ∧ slot 5 11 = 10 := by
  refine ⟨by unfold LeafDepth; decide, Real.leaf 4 (by omega), ?_, by decide, by decide⟩
  rw [← C35_is_real 5 3 12 (by omega) (by omega) (by unfold LeafDepth; decide) (by omega)]
  decide

end Mcut.Bvh
