import Verif.Lemmas.C43

namespace Mcut.Geom

variable {K : Type*} [Field K] [LinearOrder K] [IsStrictOrderedRing K]

/-- The cross product of two vectors. -/
def cr (a b : V2 K) : K := a.x * b.y - a.y * b.x

/-- Is the edge counted in `Rcross`, `Lcross`? -/
def isR (a b : V2 K) : Bool := (edgeCross a b).1
def isL (a b : V2 K) : Bool := (edgeCross a b).2

theorem isR_iff (a b : V2 K) : isR a b = true ↔ (0 < b.y ∧ a.y ≤ 0 ∧ 0 < cr a b) ∨ (0 < a.y ∧ b.y ≤ 0 ∧ cr a b < 0) := by
  have hx : (b.x * a.y - a.x * b.y) / (a.y - b.y) = cr a b / (b.y - a.y) := by
    unfold cr; rw [← neg_sub b.y a.y, ← neg_div_neg_eq, neg_neg]; congr 1; ring
  unfold isR edgeCross
  simp only [hx, Bool.and_eq_true, bne_iff_ne, ne_eq, decide_eq_true_eq, decide_eq_decide]
  constructor
  · rintro ⟨h1, h2⟩
    by_cases hb : 0 < b.y
    · have ha : a.y ≤ 0 := by by_contra hc; exact h1 ⟨fun _ => not_le.1 hc, fun _ => hb⟩
      left; refine ⟨hb, ha, ?_⟩
      have : 0 < b.y - a.y := by linarith
      rwa [gt_iff_lt, div_pos_iff_of_pos_right this] at h2
    · have ha : 0 < a.y := by by_contra hc; exact h1 ⟨fun h => absurd h hb, fun h => absurd h hc⟩
      right; refine ⟨ha, not_lt.1 hb, ?_⟩
      have : b.y - a.y < 0 := by linarith
      rcases div_pos_iff.1 h2 with ⟨_, h⟩ | ⟨h, _⟩
      · linarith
      · exact h
  · rintro (⟨h1, h2, h3⟩ | ⟨h1, h2, h3⟩)
    · exact ⟨fun h => absurd (h.1 h1) (not_lt.2 h2), div_pos h3 (by linarith)⟩
    · exact ⟨fun h => absurd (h.2 h1) (not_lt.2 h2), div_pos_of_neg_of_neg h3 (by linarith)⟩

theorem isL_iff (a b : V2 K) : isL a b = true ↔ (b.y < 0 ∧ 0 ≤ a.y ∧ 0 < cr a b) ∨ (a.y < 0 ∧ 0 ≤ b.y ∧ cr a b < 0) := by
  have hx : (b.x * a.y - a.x * b.y) / (a.y - b.y) = cr a b / (b.y - a.y) := by
    unfold cr; rw [← neg_sub b.y a.y, ← neg_div_neg_eq, neg_neg]; congr 1; ring
  unfold isL edgeCross
  simp only [hx, Bool.and_eq_true, bne_iff_ne, ne_eq, decide_eq_true_eq, decide_eq_decide]
  constructor
  · rintro ⟨h1, h2⟩
    by_cases hb : b.y < 0
    · have ha : 0 ≤ a.y := by by_contra hc; exact h1 ⟨fun _ => not_le.1 hc, fun _ => hb⟩
      left; refine ⟨hb, ha, ?_⟩
      rcases div_neg_iff.1 h2 with ⟨h, _⟩ | ⟨_, h⟩
      · exact h
      · linarith
    · have ha : a.y < 0 := by by_contra hc; exact h1 ⟨fun h => absurd h hb, fun h => absurd h hc⟩
      right; refine ⟨ha, not_lt.1 hb, ?_⟩
      rcases div_neg_iff.1 h2 with ⟨_, h⟩ | ⟨h, _⟩
      · linarith
      · exact h
  · rintro (⟨h1, h2, h3⟩ | ⟨h1, h2, h3⟩)
    · exact ⟨fun h => absurd (h.1 h1) (not_lt.2 h2), div_neg_of_pos_of_neg h3 (by linarith)⟩
    · exact ⟨fun h => absurd (h.2 h1) (not_lt.2 h2), div_neg_of_neg_of_pos h3 (by linarith)⟩

theorem cr_swap (a b : V2 K) : cr b a = -cr a b := by unfold cr; ring

theorem isR_symm (a b : V2 K) : isR a b = isR b a := by
  rw [Bool.eq_iff_iff, isR_iff, isR_iff, cr_swap b a]
  constructor
  · rintro (⟨h1, h2, h3⟩ | ⟨h1, h2, h3⟩)
    · right; exact ⟨h1, h2, by linarith⟩
    · left; exact ⟨h1, h2, by linarith⟩
  · rintro (⟨h1, h2, h3⟩ | ⟨h1, h2, h3⟩)
    · right; exact ⟨h1, h2, by linarith⟩
    · left; exact ⟨h1, h2, by linarith⟩

theorem isL_symm (a b : V2 K) : isL a b = isL b a := by
  rw [Bool.eq_iff_iff, isL_iff, isL_iff, cr_swap b a]
  constructor
  · rintro (⟨h1, h2, h3⟩ | ⟨h1, h2, h3⟩)
    · right; exact ⟨h1, h2, by linarith⟩
    · left; exact ⟨h1, h2, by linarith⟩
  · rintro (⟨h1, h2, h3⟩ | ⟨h1, h2, h3⟩)
    · right; exact ⟨h1, h2, by linarith⟩
    · left; exact ⟨h1, h2, by linarith⟩

def zero2 : V2 K := ⟨0, 0⟩

theorem ne_zero2 {a : V2 K} (h : a ≠ zero2) : a.x ≠ 0 ∨ a.y ≠ 0 := by
  by_contra hc; push Not at hc; exact h (V2.ext hc.1 hc.2)

theorem sq_pos2 {a : V2 K} (h : a ≠ zero2) : 0 < a.x * a.x + a.y * a.y := by
  rcases ne_zero2 h with h | h
  · have := mul_self_pos.2 h; have := mul_self_nonneg a.y; linarith
  · have := mul_self_pos.2 h; have := mul_self_nonneg a.x; linarith

/-- The origin lies on the segment: the two vectors are opposite. -/
def isOn (a b : V2 K) : Bool := decide (cr a b = 0 ∧ a.x * b.x + a.y * b.y < 0)

theorem isOn_iff {a b : V2 K} (ha : a ≠ zero2) (hb : b ≠ zero2) : isOn a b = true ↔ OnSeg a b zero2 := by
  unfold isOn
  rw [decide_eq_true_eq]
  constructor
  · rintro ⟨h1, h2⟩
    have hp := sq_pos2 ha
    have hd : 0 < a.x * a.x + a.y * a.y - (a.x * b.x + a.y * b.y) := by linarith
    refine ⟨(a.x * a.x + a.y * a.y) / (a.x * a.x + a.y * a.y - (a.x * b.x + a.y * b.y)), div_nonneg hp.le hd.le, (div_le_one hd).2 (by linarith), ?_⟩
    unfold cr at h1
    have key : ∀ u v N D : K, D ≠ 0 → u * D + N * (v - u) = 0 → 0 = u + N / D * (v - u) := by
      intro u v N D hD h
      field_simp; linear_combination -h
    apply V2.ext <;> simp only [lerp, zero2] <;> apply key _ _ _ _ hd.ne'
    · linear_combination (-a.y) * h1
    · linear_combination a.x * h1
  · rintro ⟨t, h0, h1, he⟩
    have hx := congrArg V2.x he
    have hy := congrArg V2.y he
    simp only [lerp, zero2] at hx hy
    have ht1 : t ≠ 1 := by
      rintro rfl
      exact hb (V2.ext (by simp only [zero2]; linear_combination -hx) (by simp only [zero2]; linear_combination -hy))
    have ht0 : t ≠ 0 := by
      rintro rfl
      exact ha (V2.ext (by simp only [zero2]; linear_combination -hx) (by simp only [zero2]; linear_combination -hy))
    have ht : 0 < t := lt_of_le_of_ne h0 (Ne.symm ht0)
    have ht' : 0 < 1 - t := sub_pos.2 (lt_of_le_of_ne h1 ht1)
    have hc : t * cr a b = 0 := by unfold cr; linear_combination a.y * hx - a.x * hy
    refine ⟨(mul_eq_zero.1 hc).resolve_left ht0, ?_⟩
    have hp := mul_pos ht (sq_pos2 hb)
    have : (1 - t) * (a.x * b.x + a.y * b.y) = -(t * (b.x * b.x + b.y * b.y)) := by linear_combination (-b.x) * hx - b.y * hy
    by_contra hcon
    have := mul_nonneg ht'.le (not_lt.1 hcon)
    linarith

/-- The upper half plane with half of the axis. -/
def isUp (v : V2 K) : Bool := decide (0 < v.y ∨ (v.y = 0 ∧ v.x < 0))

/-- The parity identity of one edge. -/
theorem edge_identity {a b : V2 K} (ha : a ≠ zero2) (hb : b ≠ zero2) : (isR a b != (isL a b != isOn a b)) = (isUp a != isUp b) := by
  have hR := isR_iff a b
  have hL := isL_iff a b
  have key : ∀ (r l o u v : Bool) (R L O U V : Prop), (r = true ↔ R) → (l = true ↔ L) → (o = true ↔ O) → (u = true ↔ U) → (v = true ↔ V) →
      (((R ∧ ¬ L ∧ ¬ O) ∨ (¬ R ∧ L ∧ ¬ O) ∨ (¬ R ∧ ¬ L ∧ O)) ∧ ((U ∧ ¬ V) ∨ (¬ U ∧ V)) ∨ (¬ R ∧ ¬ L ∧ ¬ O) ∧ ((U ∧ V) ∨ (¬ U ∧ ¬ V))) →
      (r != (l != o)) = (u != v) := by
    intro r l o u v R L O U V h1 h2 h3 h4 h5 h
    rw [← h1, ← h2, ← h3, ← h4, ← h5] at h
    revert h
    cases r <;> cases l <;> cases o <;> cases u <;> cases v <;> decide
  refine key _ _ _ _ _ _ _ _ _ _ hR hL (by unfold isOn; rw [decide_eq_true_eq]) (by unfold isUp; rw [decide_eq_true_eq]) (by unfold isUp; rw [decide_eq_true_eq]) ?_
  have hna := ne_zero2 ha
  have hnb := ne_zero2 hb
  rcases lt_trichotomy a.y 0 with hay | hay | hay <;> rcases lt_trichotomy b.y 0 with hby | hby | hby
  · -- both below
    have e1 := not_lt.2 hay.le; have e2 := not_lt.2 hby.le; have e3 := not_le.2 hay; have e4 := not_le.2 hby
    have hO : ¬ (cr a b = 0 ∧ a.x * b.x + a.y * b.y < 0) := by
      rintro ⟨h1, h2⟩
      unfold cr at h1
      have h3 : a.x * b.x * (a.y * b.y) = (a.x * b.y) * (a.x * b.y) := by linear_combination (-(a.x * b.y)) * h1
      have h4 := mul_pos_of_neg_of_neg hay hby
      have h5 := mul_self_nonneg (a.x * b.y)
      have h6 : a.x * b.x < 0 := by linarith
      have := mul_neg_of_neg_of_pos h6 h4
      linarith
    simp [e1, e2, e3, e4, hO, hay.ne, hby.ne]
  · -- a below, b on the axis
    have hbx : b.x ≠ 0 := hnb.resolve_right (fun h => h hby)
    have e1 := not_lt.2 hay.le; have e3 := not_le.2 hay
    have hc : cr a b = -(a.y * b.x) := by unfold cr; rw [hby]; ring
    rcases lt_or_gt_of_ne hbx with h | h
    · have hneg : cr a b < 0 := by rw [hc]; have := mul_pos_of_neg_of_neg hay h; linarith
      simp [e1, e3, hby, hay, h, hneg, hneg.ne, hay.ne]
    · have hpos : 0 < cr a b := by rw [hc]; have := mul_neg_of_neg_of_pos hay h; linarith
      simp [e1, e3, hby, hay, not_lt.2 h.le, not_lt.2 hpos.le, hpos.ne', hay.ne]
  · -- a below, b above
    have e1 := not_lt.2 hay.le; have e2 := not_lt.2 hby.le; have e3 := not_le.2 hay; have e4 := not_le.2 hby
    rcases lt_trichotomy (cr a b) 0 with h | h | h
    · simp [e1, e2, e3, e4, h, not_lt.2 h.le, h.ne, hay, hby, hay.le, hby.le, hay.ne, hby.ne']
    · have hO : a.x * b.x + a.y * b.y < 0 := by
        unfold cr at h
        have h4 := mul_neg_of_neg_of_pos hay hby
        have h3 : a.x * b.x * (a.y * b.y) = (a.x * b.y) * (a.x * b.y) := by linear_combination (-(a.x * b.y)) * h
        have h5 := mul_self_nonneg (a.x * b.y)
        by_contra hc
        have h6 : 0 < a.x * b.x := by linarith
        have := mul_neg_of_pos_of_neg h6 h4
        linarith
      simp [e1, e2, e3, e4, h, hO, hay, hby, hay.le, hby.le, hay.ne, hby.ne']
    · simp [e1, e2, e3, e4, h, not_lt.2 h.le, h.ne', hay, hby, hay.le, hby.le, hay.ne, hby.ne']
  · -- a on the axis, b below
    have hax : a.x ≠ 0 := hna.resolve_right (fun h => h hay)
    have e1 := not_lt.2 hby.le; have e3 := not_le.2 hby
    have hc : cr a b = a.x * b.y := by unfold cr; rw [hay]; ring
    rcases lt_or_gt_of_ne hax with h | h
    · have hpos : 0 < cr a b := by rw [hc]; exact mul_pos_of_neg_of_neg h hby
      simp [e1, e3, hay, hby, h, hpos, hpos.ne', hby.ne]
    · have hneg : cr a b < 0 := by rw [hc]; exact mul_neg_of_pos_of_neg h hby
      simp [e1, e3, hay, hby, not_lt.2 h.le, not_lt.2 hneg.le, hneg.ne, hby.ne]
  · -- both on the axis
    have hax : a.x ≠ 0 := hna.resolve_right (fun h => h hay)
    have hbx : b.x ≠ 0 := hnb.resolve_right (fun h => h hby)
    have hc : cr a b = 0 := by unfold cr; rw [hay, hby]; ring
    have hd : a.x * b.x + a.y * b.y = a.x * b.x := by rw [hay]; ring
    rw [hd]
    rcases lt_or_gt_of_ne hax with h | h <;> rcases lt_or_gt_of_ne hbx with h' | h'
    · simp [hc, hay, hby, h, h', not_lt.2 (mul_pos_of_neg_of_neg h h').le]
    · simp [hc, hay, hby, h, not_lt.2 h'.le, mul_neg_of_neg_of_pos h h']
    · simp [hc, hay, hby, not_lt.2 h.le, h', mul_neg_of_pos_of_neg h h']
    · simp [hc, hay, hby, not_lt.2 h.le, not_lt.2 h'.le, not_lt.2 (mul_pos h h').le]
  · -- a on the axis, b above
    have hax : a.x ≠ 0 := hna.resolve_right (fun h => h hay)
    have e1 := not_lt.2 hby.le; have e3 := not_le.2 hby
    have hc : cr a b = a.x * b.y := by unfold cr; rw [hay]; ring
    rcases lt_or_gt_of_ne hax with h | h
    · have hneg : cr a b < 0 := by rw [hc]; exact mul_neg_of_neg_of_pos h hby
      simp [e1, e3, hay, hby, h, not_lt.2 hneg.le, hneg.ne, hby.ne']
    · have hpos : 0 < cr a b := by rw [hc]; exact mul_pos h hby
      simp [e1, e3, hay, hby, not_lt.2 h.le, hpos, hpos.ne', hby.ne']
  · -- a above, b below
    have e1 := not_lt.2 hay.le; have e2 := not_lt.2 hby.le; have e3 := not_le.2 hay; have e4 := not_le.2 hby
    rcases lt_trichotomy (cr a b) 0 with h | h | h
    · simp [e1, e2, e3, e4, h, not_lt.2 h.le, h.ne, hay, hby, hay.le, hby.le, hay.ne', hby.ne]
    · have hO : a.x * b.x + a.y * b.y < 0 := by
        unfold cr at h
        have h4 := mul_neg_of_pos_of_neg hay hby
        have h3 : a.x * b.x * (a.y * b.y) = (a.x * b.y) * (a.x * b.y) := by linear_combination (-(a.x * b.y)) * h
        have h5 := mul_self_nonneg (a.x * b.y)
        by_contra hc
        have h6 : 0 < a.x * b.x := by linarith
        have := mul_neg_of_pos_of_neg h6 h4
        linarith
      simp [e1, e2, e3, e4, h, hO, hay, hby, hay.le, hby.le, hay.ne', hby.ne]
    · simp [e1, e2, e3, e4, h, not_lt.2 h.le, h.ne', hay, hby, hay.le, hby.le, hay.ne', hby.ne]
  · -- a above, b on the axis
    have hbx : b.x ≠ 0 := hnb.resolve_right (fun h => h hby)
    have e1 := not_lt.2 hay.le; have e3 := not_le.2 hay
    have hc : cr a b = -(a.y * b.x) := by unfold cr; rw [hby]; ring
    rcases lt_or_gt_of_ne hbx with h | h
    · have hpos : 0 < cr a b := by rw [hc]; have := mul_neg_of_pos_of_neg hay h; linarith
      simp [e1, e3, hby, hay, h, not_lt.2 hpos.le, hpos.ne', hay.ne']
    · have hneg : cr a b < 0 := by rw [hc]; have := mul_pos hay h; linarith
      simp [e1, e3, hby, hay, not_lt.2 h.le, hneg, hneg.ne, hay.ne']
  · -- both above
    have e1 := not_lt.2 hay.le; have e2 := not_lt.2 hby.le; have e3 := not_le.2 hay; have e4 := not_le.2 hby
    have hO : ¬ (cr a b = 0 ∧ a.x * b.x + a.y * b.y < 0) := by
      rintro ⟨h1, h2⟩
      unfold cr at h1
      have h3 : a.x * b.x * (a.y * b.y) = (a.x * b.y) * (a.x * b.y) := by linear_combination (-(a.x * b.y)) * h1
      have h4 := mul_pos hay hby
      have h5 := mul_self_nonneg (a.x * b.y)
      have h6 : a.x * b.x < 0 := by linarith
      have := mul_neg_of_neg_of_pos h6 h4
      linarith
    simp [e1, e2, e3, e4, hO, hay, hby]

end Mcut.Geom
