import Verif.Lemmas.C43Geom

namespace Mcut.Geom

variable {K : Type*} [Field K] [LinearOrder K] [IsStrictOrderedRing K]

theorem bool_bne_comm (x y : Bool) : (x != y) = (y != x) := by cases x <;> cases y <;> rfl

/-- All three triples have the same orientation. -/
def Same (a b c : V2 K) : Prop := (0 < cr a b ∧ 0 < cr b c ∧ 0 < cr c a) ∨ (cr a b < 0 ∧ cr b c < 0 ∧ cr c a < 0)

theorem Same.rot {a b c : V2 K} : Same a b c ↔ Same b c a := by
  unfold Same
  constructor <;> rintro (⟨h1, h2, h3⟩ | ⟨h1, h2, h3⟩)
  · left; exact ⟨h2, h3, h1⟩
  · right; exact ⟨h2, h3, h1⟩
  · left; exact ⟨h3, h1, h2⟩
  · right; exact ⟨h3, h1, h2⟩

theorem cr_comb_y (a b c : V2 K) : cr b c * a.y + cr c a * b.y + cr a b * c.y = 0 := by unfold cr; ring
theorem cr_comb_x (a b c : V2 K) : cr b c * a.x + cr c a * b.x + cr a b * c.x = 0 := by unfold cr; ring

theorem straddle_ne {a b : V2 K} (hb : b ≠ zero2) (ha0 : 0 < a.y) (hb0 : b.y ≤ 0) (hon : isOn a b = false) : cr a b ≠ 0 := by
  intro h
  unfold isOn at hon
  rw [decide_eq_false_iff_not] at hon
  rcases lt_or_eq_of_le hb0 with hby | hby
  · apply hon
    refine ⟨h, ?_⟩
    unfold cr at h
    have h4 := mul_neg_of_pos_of_neg ha0 hby
    have h3 : a.x * b.x * (a.y * b.y) = (a.x * b.y) * (a.x * b.y) := by linear_combination (-(a.x * b.y)) * h
    have h5 := mul_self_nonneg (a.x * b.y)
    by_contra hc
    have h6 : 0 < a.x * b.x := by linarith
    have := mul_neg_of_pos_of_neg h6 h4
    linarith
  · unfold cr at h
    rw [hby, mul_zero, zero_sub, neg_eq_zero] at h
    rcases mul_eq_zero.1 h with h | h
    · exact ha0.ne' h
    · exact hb (V2.ext h hby)

theorem isOn_symm (a b : V2 K) : isOn a b = isOn b a := by
  unfold isOn
  rw [decide_eq_decide, cr_swap b a, mul_comm b.x, mul_comm b.y, neg_eq_zero]

theorem isR_up_down {a b : V2 K} (ha : 0 < a.y) (hb : b.y ≤ 0) : isR a b = true ↔ cr a b < 0 := by
  rw [isR_iff]
  constructor
  · rintro (⟨h, _⟩ | ⟨_, _, h⟩)
    · exact absurd h (not_lt.2 hb)
    · exact h
  · intro h; exact Or.inr ⟨ha, hb, h⟩

theorem isR_down_up {a b : V2 K} (ha : a.y ≤ 0) (hb : 0 < b.y) : isR a b = true ↔ 0 < cr a b := by
  rw [isR_iff]
  constructor
  · rintro (⟨_, _, h⟩ | ⟨h, _⟩)
    · exact h
    · exact absurd h (not_lt.2 ha)
  · intro h; exact Or.inl ⟨hb, ha, h⟩

theorem isR_down_down {a b : V2 K} (ha : a.y ≤ 0) (hb : b.y ≤ 0) : isR a b = false := by
  rw [Bool.eq_false_iff, ne_eq, isR_iff]
  rintro (⟨h, _⟩ | ⟨h, _⟩)
  · exact absurd h (not_lt.2 hb)
  · exact absurd h (not_lt.2 ha)

theorem isR_up_up {a b : V2 K} (ha : 0 < a.y) (hb : 0 < b.y) : isR a b = false := by
  rw [Bool.eq_false_iff, ne_eq, isR_iff]
  rintro (⟨_, h, _⟩ | ⟨_, h, _⟩)
  · exact absurd ha (not_lt.2 h)
  · exact absurd hb (not_lt.2 h)

/-- One vertex above, two not. -/
theorem tri_one {a b c : V2 K} (hb : b ≠ zero2) (hc : c ≠ zero2) (hab : isOn a b = false) (hbc : isOn b c = false) (hca : isOn c a = false)
    (h1 : 0 < a.y) (h2 : b.y ≤ 0) (h3 : c.y ≤ 0) : (isR a b != isR c a) = true ↔ Same a b c := by
  have n1 := straddle_ne hb h1 h2 hab
  have n2 : cr c a ≠ 0 := by
    have := straddle_ne hc h1 h3 (by rw [isOn_symm]; exact hca)
    rw [cr_swap c a] at this; exact fun h => this (by rw [h, neg_zero])
  have hy := cr_comb_y a b c
  have hR1 := isR_up_down h1 h2
  have hR2 := isR_down_up h3 h1
  have hzero : cr b c = 0 → ¬ ((0 < cr a b ∧ 0 < cr c a) ∨ (cr a b < 0 ∧ cr c a < 0)) := by
    intro h0 hs
    rw [h0, zero_mul, zero_add] at hy
    have hb0 : b.y = 0 ∧ c.y = 0 := by
      rcases hs with ⟨s1, s2⟩ | ⟨s1, s2⟩
      · have m1 := mul_nonpos_of_nonneg_of_nonpos s2.le h2
        have m2 := mul_nonpos_of_nonneg_of_nonpos s1.le h3
        have e1 : cr c a * b.y = 0 := by linarith
        have e2 : cr a b * c.y = 0 := by linarith
        exact ⟨(mul_eq_zero.1 e1).resolve_left n2, (mul_eq_zero.1 e2).resolve_left n1⟩
      · have m1 := mul_nonneg_of_nonpos_of_nonpos s2.le h2
        have m2 := mul_nonneg_of_nonpos_of_nonpos s1.le h3
        have e1 : cr c a * b.y = 0 := by linarith
        have e2 : cr a b * c.y = 0 := by linarith
        exact ⟨(mul_eq_zero.1 e1).resolve_left n2, (mul_eq_zero.1 e2).resolve_left n1⟩
    unfold isOn at hbc
    rw [decide_eq_false_iff_not] at hbc
    apply hbc
    refine ⟨h0, ?_⟩
    rw [hb0.1, zero_mul, add_zero]
    have c1 : cr a b = -(a.y * b.x) := by unfold cr; rw [hb0.1]; ring
    have c2 : cr c a = c.x * a.y := by unfold cr; rw [hb0.2]; ring
    rw [c1, c2] at hs
    rcases hs with ⟨s1, s2⟩ | ⟨s1, s2⟩
    · have hcx : 0 < c.x := by by_contra hcon; have := mul_nonpos_of_nonpos_of_nonneg (not_lt.1 hcon) h1.le; linarith
      have hbx : b.x < 0 := by by_contra hcon; have := mul_nonneg h1.le (not_lt.1 hcon); linarith
      exact mul_neg_of_neg_of_pos hbx hcx
    · have hcx : c.x < 0 := by by_contra hcon; have := mul_nonneg (not_lt.1 hcon) h1.le; linarith
      have hbx : 0 < b.x := by by_contra hcon; have := mul_nonpos_of_nonneg_of_nonpos h1.le (not_lt.1 hcon); linarith
      exact mul_neg_of_pos_of_neg hbx hcx
  rcases lt_or_gt_of_ne n1 with s1 | s1 <;> rcases lt_or_gt_of_ne n2 with s2 | s2
  · -- both negative
    have r1 : isR a b = true := hR1.2 s1
    have r2 : isR c a = false := by rw [Bool.eq_false_iff]; exact fun h => absurd (hR2.1 h) (not_lt.2 s2.le)
    rw [r1, r2]
    refine ⟨fun _ => Or.inr ⟨s1, ?_, s2⟩, fun _ => rfl⟩
    have m1 := mul_nonneg_of_nonpos_of_nonpos s2.le h2
    have m2 := mul_nonneg_of_nonpos_of_nonpos s1.le h3
    have hle : cr b c ≤ 0 := by by_contra hcon; have := mul_pos (not_le.1 hcon) h1; linarith
    exact lt_of_le_of_ne hle (fun h0 => hzero h0 (Or.inr ⟨s1, s2⟩))
  · have r1 : isR a b = true := hR1.2 s1
    have r2 : isR c a = true := hR2.2 s2
    rw [r1, r2]
    refine ⟨fun h => (by cases h), ?_⟩
    rintro (⟨h, _, _⟩ | ⟨_, _, h⟩) <;> linarith
  · have r1 : isR a b = false := by rw [Bool.eq_false_iff]; exact fun h => absurd (hR1.1 h) (not_lt.2 s1.le)
    have r2 : isR c a = false := by rw [Bool.eq_false_iff]; exact fun h => absurd (hR2.1 h) (not_lt.2 s2.le)
    rw [r1, r2]
    refine ⟨fun h => (by cases h), ?_⟩
    rintro (⟨_, _, h⟩ | ⟨h, _, _⟩) <;> linarith
  · have r1 : isR a b = false := by rw [Bool.eq_false_iff]; exact fun h => absurd (hR1.1 h) (not_lt.2 s1.le)
    have r2 : isR c a = true := hR2.2 s2
    rw [r1, r2]
    refine ⟨fun _ => Or.inl ⟨s1, ?_, s2⟩, fun _ => rfl⟩
    have m1 := mul_nonpos_of_nonneg_of_nonpos s2.le h2
    have m2 := mul_nonpos_of_nonneg_of_nonpos s1.le h3
    have hle : 0 ≤ cr b c := by by_contra hcon; have := mul_neg_of_neg_of_pos (not_le.1 hcon) h1; linarith
    exact lt_of_le_of_ne hle (fun h0 => hzero h0.symm (Or.inl ⟨s1, s2⟩))

/-- One vertex not above, two above. -/
theorem tri_two {a b c : V2 K} (ha : a ≠ zero2) (hab : isOn a b = false) (hca : isOn c a = false)
    (h1 : a.y ≤ 0) (h2 : 0 < b.y) (h3 : 0 < c.y) : (isR a b != isR c a) = true ↔ Same a b c := by
  have n1 : cr a b ≠ 0 := by
    have := straddle_ne ha h2 h1 (by rw [isOn_symm]; exact hab)
    rw [cr_swap a b] at this; exact fun h => this (by rw [h, neg_zero])
  have n2 := straddle_ne ha h3 h1 hca
  have hy := cr_comb_y a b c
  have hR1 := isR_down_up h1 h2
  have hR2 := isR_up_down h3 h1
  rcases lt_or_gt_of_ne n1 with s1 | s1 <;> rcases lt_or_gt_of_ne n2 with s2 | s2
  · have r1 : isR a b = false := by rw [Bool.eq_false_iff]; exact fun h => absurd (hR1.1 h) (not_lt.2 s1.le)
    have r2 : isR c a = true := hR2.2 s2
    rw [r1, r2]
    refine ⟨fun _ => Or.inr ⟨s1, ?_, s2⟩, fun _ => rfl⟩
    have m1 := mul_neg_of_neg_of_pos s2 h2
    have m2 := mul_neg_of_neg_of_pos s1 h3
    by_contra hcon
    have := mul_nonpos_of_nonneg_of_nonpos (not_lt.1 hcon) h1
    linarith
  · have r1 : isR a b = false := by rw [Bool.eq_false_iff]; exact fun h => absurd (hR1.1 h) (not_lt.2 s1.le)
    have r2 : isR c a = false := by rw [Bool.eq_false_iff]; exact fun h => absurd (hR2.1 h) (not_lt.2 s2.le)
    rw [r1, r2]
    refine ⟨fun h => (by cases h), ?_⟩
    rintro (⟨h, _, _⟩ | ⟨_, _, h⟩) <;> linarith
  · have r1 : isR a b = true := hR1.2 s1
    have r2 : isR c a = true := hR2.2 s2
    rw [r1, r2]
    refine ⟨fun h => (by cases h), ?_⟩
    rintro (⟨_, _, h⟩ | ⟨h, _, _⟩) <;> linarith
  · have r1 : isR a b = true := hR1.2 s1
    have r2 : isR c a = false := by rw [Bool.eq_false_iff]; exact fun h => absurd (hR2.1 h) (not_lt.2 s2.le)
    rw [r1, r2]
    refine ⟨fun _ => Or.inl ⟨s1, ?_, s2⟩, fun _ => rfl⟩
    have m1 := mul_pos s2 h2
    have m2 := mul_pos s1 h3
    by_contra hcon
    have := mul_nonneg_of_nonpos_of_nonpos (not_lt.1 hcon) h1
    linarith

/-- No vertex above, or all. -/
theorem tri_zero {a b c : V2 K} (h : (a.y ≤ 0 ∧ b.y ≤ 0 ∧ c.y ≤ 0) ∨ (0 < a.y ∧ 0 < b.y ∧ 0 < c.y)) : ¬ Same a b c := by
  have hy := cr_comb_y a b c
  rintro (⟨s1, s2, s3⟩ | ⟨s1, s2, s3⟩) <;> rcases h with ⟨h1, h2, h3⟩ | ⟨h1, h2, h3⟩
  · have m1 := mul_nonpos_of_nonneg_of_nonpos s2.le h1
    have m2 := mul_nonpos_of_nonneg_of_nonpos s3.le h2
    have m3 := mul_nonpos_of_nonneg_of_nonpos s1.le h3
    have e1 : cr b c * a.y = 0 := by linarith
    have e2 : cr c a * b.y = 0 := by linarith
    have a0 := (mul_eq_zero.1 e1).resolve_left s2.ne'
    have b0 := (mul_eq_zero.1 e2).resolve_left s3.ne'
    have : cr a b = 0 := by unfold cr; rw [a0, b0]; ring
    linarith
  · have m1 := mul_pos s2 h1
    have m2 := mul_pos s3 h2
    have m3 := mul_pos s1 h3
    linarith
  · have m1 := mul_nonneg_of_nonpos_of_nonpos s2.le h1
    have m2 := mul_nonneg_of_nonpos_of_nonpos s3.le h2
    have m3 := mul_nonneg_of_nonpos_of_nonpos s1.le h3
    have e1 : cr b c * a.y = 0 := by linarith
    have e2 : cr c a * b.y = 0 := by linarith
    have a0 := (mul_eq_zero.1 e1).resolve_left s2.ne
    have b0 := (mul_eq_zero.1 e2).resolve_left s3.ne
    have : cr a b = 0 := by unfold cr; rw [a0, b0]; ring
    linarith
  · have m1 := mul_neg_of_neg_of_pos s2 h1
    have m2 := mul_neg_of_neg_of_pos s3 h2
    have m3 := mul_neg_of_neg_of_pos s1 h3
    linarith

/-- The crossing parity of a triangle that does not contain the origin on an edge. -/
theorem tri_parity {a b c : V2 K} (ha : a ≠ zero2) (hb : b ≠ zero2) (hc : c ≠ zero2)
    (hab : isOn a b = false) (hbc : isOn b c = false) (hca : isOn c a = false) :
    (isR a b != (isR b c != isR c a)) = true ↔ Same a b c := by
  by_cases h1 : 0 < a.y <;> by_cases h2 : 0 < b.y <;> by_cases h3 : 0 < c.y
  · rw [isR_up_up h1 h2, isR_up_up h2 h3, isR_up_up h3 h1]
    exact ⟨fun h => (by cases h), fun h => absurd h (tri_zero (Or.inr ⟨h1, h2, h3⟩))⟩
  · rw [isR_up_up h1 h2, Bool.false_bne]
    rw [bool_bne_comm, Same.rot, Same.rot]
    exact tri_two hc hca hbc (not_lt.1 h3) h1 h2
  · rw [isR_up_up h3 h1, Bool.bne_false]
    rw [bool_bne_comm, Same.rot]
    exact tri_two hb hbc hab (not_lt.1 h2) h3 h1
  · rw [isR_down_down (not_lt.1 h2) (not_lt.1 h3), Bool.false_bne]
    exact tri_one hb hc hab hbc hca h1 (not_lt.1 h2) (not_lt.1 h3)
  · rw [isR_up_up h2 h3, Bool.false_bne]
    exact tri_two ha hab hca (not_lt.1 h1) h2 h3
  · rw [isR_down_down (not_lt.1 h3) (not_lt.1 h1), Bool.bne_false]
    rw [bool_bne_comm, Same.rot]
    exact tri_one hc ha hbc hca hab h2 (not_lt.1 h3) (not_lt.1 h1)
  · rw [isR_down_down (not_lt.1 h1) (not_lt.1 h2), Bool.false_bne]
    rw [bool_bne_comm, Same.rot, Same.rot]
    exact tri_one ha hb hca hab hbc h3 (not_lt.1 h1) (not_lt.1 h2)
  · rw [isR_down_down (not_lt.1 h1) (not_lt.1 h2), isR_down_down (not_lt.1 h2) (not_lt.1 h3), isR_down_down (not_lt.1 h3) (not_lt.1 h1)]
    exact ⟨fun h => (by cases h), fun h => absurd h (tri_zero (Or.inl ⟨not_lt.1 h1, not_lt.1 h2, not_lt.1 h3⟩))⟩

/-! ## Triangles in general position -/

/-- The vector from `q` to `v`. -/
def sh (q v : V2 K) : V2 K := ⟨v.x - q.x, v.y - q.y⟩

theorem cr_sh (q a b : V2 K) : cr (sh q a) (sh q b) = orient2d a b q := by unfold cr sh orient2d; ring

theorem sh_zero {q v : V2 K} : sh q v = zero2 ↔ v = q := by
  constructor
  · intro h
    have hx := congrArg V2.x h; have hy := congrArg V2.y h
    simp only [sh, zero2] at hx hy
    exact V2.ext (sub_eq_zero.1 hx) (sub_eq_zero.1 hy)
  · rintro rfl; simp [sh, zero2]

theorem onSeg_sh {a b q : V2 K} : OnSeg (sh q a) (sh q b) zero2 ↔ OnSeg a b q := by
  constructor
  · rintro ⟨t, h0, h1, he⟩
    refine ⟨t, h0, h1, ?_⟩
    have hx := congrArg V2.x he; have hy := congrArg V2.y he
    simp only [lerp, sh, zero2] at hx hy
    exact V2.ext (by simp only [lerp]; linear_combination hx) (by simp only [lerp]; linear_combination hy)
  · rintro ⟨t, h0, h1, he⟩
    refine ⟨t, h0, h1, ?_⟩
    have hx := congrArg V2.x he; have hy := congrArg V2.y he
    simp only [lerp] at hx hy
    exact V2.ext (by simp only [lerp, sh, zero2]; linear_combination hx) (by simp only [lerp, sh, zero2]; linear_combination hy)

theorem not_collinear_iff {a b c : V2 K} : ((∀ t, c ≠ lerp a b t) ∧ a ≠ b) ↔ orient2d a b c ≠ 0 := by
  constructor
  · rintro ⟨h1, h2⟩ h0
    obtain ⟨t, ht⟩ := collinear_lerp' h2 h0
    exact h1 t ht
  · intro h
    refine ⟨fun t ht => h ?_, ?_⟩
    · rw [ht]; unfold orient2d lerp; ring
    · rintro rfl; apply h; unfold orient2d; ring

theorem strictlyInside_iff {a b c q : V2 K} : StrictlyInside a b c q ↔ Same (sh q a) (sh q b) (sh q c) := by
  unfold StrictlyInside Same
  simp only [cr_sh]
  have hsum : orient2d a b q + orient2d b c q + orient2d c a q = orient2d a b c := by unfold orient2d; ring
  constructor
  · rintro ⟨h1, h2, u, v, w, hu, hv, hw, hs, hq⟩
    have hS := not_collinear_iff.1 ⟨h1, h2⟩
    have hw' : w = 1 - u - v := by linear_combination hs
    have e1 : orient2d a b q = w * orient2d a b c := by subst hw'; rw [hq]; unfold orient2d; ring
    have e2 : orient2d b c q = u * orient2d a b c := by subst hw'; rw [hq]; unfold orient2d; ring
    have e3 : orient2d c a q = v * orient2d a b c := by subst hw'; rw [hq]; unfold orient2d; ring
    rw [e1, e2, e3]
    rcases lt_or_gt_of_ne hS with h | h
    · right; exact ⟨mul_neg_of_pos_of_neg hw h, mul_neg_of_pos_of_neg hu h, mul_neg_of_pos_of_neg hv h⟩
    · left; exact ⟨mul_pos hw h, mul_pos hu h, mul_pos hv h⟩
  · intro h
    have hS : orient2d a b c ≠ 0 := by rw [← hsum]; rcases h with ⟨h1, h2, h3⟩ | ⟨h1, h2, h3⟩ <;> [apply ne_of_gt; apply ne_of_lt] <;> linarith
    have hnc := not_collinear_iff.2 hS
    refine ⟨hnc.1, hnc.2, orient2d b c q / orient2d a b c, orient2d c a q / orient2d a b c, orient2d a b q / orient2d a b c, ?_, ?_, ?_, ?_, ?_⟩
    · rcases h with ⟨h1, h2, h3⟩ | ⟨h1, h2, h3⟩
      · exact div_pos h2 (by rw [← hsum]; linarith)
      · exact div_pos_of_neg_of_neg h2 (by rw [← hsum]; linarith)
    · rcases h with ⟨h1, h2, h3⟩ | ⟨h1, h2, h3⟩
      · exact div_pos h3 (by rw [← hsum]; linarith)
      · exact div_pos_of_neg_of_neg h3 (by rw [← hsum]; linarith)
    · rcases h with ⟨h1, h2, h3⟩ | ⟨h1, h2, h3⟩
      · exact div_pos h1 (by rw [← hsum]; linarith)
      · exact div_pos_of_neg_of_neg h1 (by rw [← hsum]; linarith)
    · field_simp; linear_combination hsum
    · apply V2.ext <;> simp only <;> field_simp <;> unfold orient2d <;> ring

end Mcut.Geom
