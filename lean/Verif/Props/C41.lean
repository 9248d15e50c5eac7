import Verif.Spec.C41
import Mathlib.Tactic.Ring
import Mathlib.Tactic.FieldSimp
import Mathlib.Tactic.Linarith
import Mathlib.Tactic.LinearCombination
import Mathlib.Algebra.Order.Ring.Rat

namespace Mcut.Geom

variable {K : Type*} [Field K] [LinearOrder K] [IsStrictOrderedRing K]

theorem lerp_zero (a b : V2 K) : lerp a b 0 = a := by simp [lerp]
theorem lerp_one (a b : V2 K) : lerp a b 1 = b := by simp [lerp]

theorem ne_comp {a b : V2 K} (h : a ≠ b) : a.x ≠ b.x ∨ a.y ≠ b.y := by
  by_contra hc
  simp only [not_or, not_not] at hc
  exact h (V2.ext hc.1 hc.2)

/-- A point collinear with `a ≠ b` has a parameter. -/
theorem collinear_lerp {a b c : V2 K} (h : a ≠ b) (hc : orient2d a b c = 0) : ∃ t, c = lerp a b t := by
  unfold orient2d at hc
  rcases ne_comp h with hx | hy
  · have h0 : b.x - a.x ≠ 0 := sub_ne_zero.2 (Ne.symm hx)
    refine ⟨(c.x - a.x) / (b.x - a.x), V2.ext ?_ ?_⟩ <;> simp only [lerp]
    · field_simp; ring
    · field_simp; linear_combination hc
  · have h0 : b.y - a.y ≠ 0 := sub_ne_zero.2 (Ne.symm hy)
    refine ⟨(c.y - a.y) / (b.y - a.y), V2.ext ?_ ?_⟩ <;> simp only [lerp]
    · field_simp; linear_combination -hc
    · field_simp; ring

theorem lerp_collinear (a b : V2 K) (t : K) : orient2d a b (lerp a b t) = 0 := by
  unfold orient2d lerp; ring

theorem between_lerp {a b : V2 K} (h : a ≠ b) (t : K) : between a b (lerp a b t) = true ↔ 0 ≤ t ∧ t ≤ 1 := by
  have key : ∀ u v : K, u ≠ v → (((u ≤ u + t * (v - u) ∧ u + t * (v - u) ≤ v) ∨ (u ≥ u + t * (v - u) ∧ u + t * (v - u) ≥ v)) ↔ 0 ≤ t ∧ t ≤ 1) := by
    intro u v huv
    rcases lt_or_gt_of_ne huv with hlt | hgt
    · have hp : 0 < v - u := sub_pos.2 hlt
      constructor
      · rintro (⟨h1, h2⟩ | ⟨h1, h2⟩)
        · exact ⟨by by_contra hc; nlinarith [mul_pos_of_neg_of_neg (a := t) (b := -(v-u)) (by linarith) (by linarith)], by by_contra hc; nlinarith [mul_pos (a := t - 1) (b := v - u) (by linarith) hp]⟩
        · have : v ≤ u := by linarith
          linarith
      · rintro ⟨h1, h2⟩
        left
        exact ⟨by nlinarith [mul_nonneg h1 hp.le], by nlinarith [mul_nonneg (sub_nonneg.2 h2) hp.le]⟩
    · have hp : 0 < u - v := sub_pos.2 hgt
      constructor
      · rintro (⟨h1, h2⟩ | ⟨h1, h2⟩)
        · have : u ≤ v := by linarith
          linarith
        · exact ⟨by by_contra hc; nlinarith [mul_pos (a := -t) (b := u - v) (by linarith) hp], by by_contra hc; nlinarith [mul_pos (a := t - 1) (b := u - v) (by linarith) hp]⟩
      · rintro ⟨h1, h2⟩
        right
        exact ⟨by nlinarith [mul_nonneg h1 hp.le], by nlinarith [mul_nonneg (sub_nonneg.2 h2) hp.le]⟩
  unfold between lerp
  by_cases hx : a.x = b.x
  · have hy : a.y ≠ b.y := (ne_comp h).resolve_left (fun h' => h' hx)
    simp only [hx, ne_eq, not_true_eq_false, if_false, Bool.or_eq_true, Bool.and_eq_true, decide_eq_true_eq]
    exact key _ _ hy
  · simp only [ne_eq, hx, not_false_eq_true, if_true, Bool.or_eq_true, Bool.and_eq_true, decide_eq_true_eq]
    exact key _ _ hx

/-- Non-parallel lines meet in exactly one point, with the parameters that the code computes. -/
theorem lines_meet {a b c d : V2 K} (h : ¬ Parallel a b c d) (s t : K) :
    lerp a b s = lerp c d t ↔
      s = (a.x * (d.y - c.y) + c.x * (a.y - d.y) + d.x * (c.y - a.y)) /
          (a.x * (d.y - c.y) + b.x * (c.y - d.y) + d.x * (b.y - a.y) + c.x * (a.y - b.y)) ∧
      t = -(a.x * (c.y - b.y) + b.x * (a.y - c.y) + c.x * (b.y - a.y)) /
          (a.x * (d.y - c.y) + b.x * (c.y - d.y) + d.x * (b.y - a.y) + c.x * (a.y - b.y)) := by
  have hD : a.x * (d.y - c.y) + b.x * (c.y - d.y) + d.x * (b.y - a.y) + c.x * (a.y - b.y) ≠ 0 := by
    intro h0; apply h; unfold Parallel; linear_combination -h0
  constructor
  · intro he
    have hx := congrArg V2.x he
    have hy := congrArg V2.y he
    simp only [lerp] at hx hy
    constructor
    · rw [eq_div_iff hD]; linear_combination (-(d.y - c.y)) * hx + (d.x - c.x) * hy
    · rw [eq_div_iff hD]; linear_combination (-(b.y - a.y)) * hx + (b.x - a.x) * hy
  · rintro ⟨rfl, rfl⟩
    apply V2.ext <;> simp only [lerp] <;> field_simp <;> ring

theorem denom_zero_iff (a b c d : V2 K) :
    a.x * (d.y - c.y) + b.x * (c.y - d.y) + d.x * (b.y - a.y) + c.x * (a.y - b.y) = 0 ↔ Parallel a b c d := by
  unfold Parallel
  constructor
  · intro h; linear_combination -h
  · intro h; linear_combination -h

/-- Two collinear intervals of parameters. -/
theorem lerp_lerp (a b : V2 K) (g e t : K) : lerp (lerp a b g) (lerp a b e) t = lerp a b (g + t * (e - g)) := by
  apply V2.ext <;> simp only [lerp] <;> ring

theorem lerp_inj {a b : V2 K} (h : a ≠ b) {s t : K} (he : lerp a b s = lerp a b t) : s = t := by
  have hx := congrArg V2.x he
  have hy := congrArg V2.y he
  simp only [lerp] at hx hy
  rcases ne_comp h with h1 | h1
  · have h0 : b.x - a.x ≠ 0 := sub_ne_zero.2 (Ne.symm h1)
    have : (s - t) * (b.x - a.x) = 0 := by linear_combination hx
    exact sub_eq_zero.1 ((mul_eq_zero.1 this).resolve_right h0)
  · have h0 : b.y - a.y ≠ 0 := sub_ne_zero.2 (Ne.symm h1)
    have : (s - t) * (b.y - a.y) = 0 := by linear_combination hy
    exact sub_eq_zero.1 ((mul_eq_zero.1 this).resolve_right h0)

/-- Parallel segments that share a point are collinear. -/
theorem parallel_common_collinear {a b c d p : V2 K} (hp : Parallel a b c d) (h : Common a b c d p) : orient2d a b c = 0 := by
  obtain ⟨⟨s, _, _, hs⟩, ⟨t, _, _, ht⟩⟩ := h
  rw [hs] at ht
  have hx := congrArg V2.x ht
  have hy := congrArg V2.y ht
  simp only [lerp] at hx hy
  unfold Parallel at hp
  unfold orient2d
  linear_combination (b.y - a.y) * hx - (b.x - a.x) * hy - t * hp

theorem parallel_collinear_d {a b c d : V2 K} (hp : Parallel a b c d) (h : orient2d a b c = 0) : orient2d a b d = 0 := by
  unfold Parallel at hp
  unfold orient2d at *
  linear_combination h + hp

theorem onSeg_between {a b c : V2 K} (h : a ≠ b) (hc : orient2d a b c = 0) : between a b c = true ↔ OnSeg a b c := by
  obtain ⟨t, rfl⟩ := collinear_lerp h hc
  rw [between_lerp h]
  constructor
  · rintro ⟨h1, h2⟩; exact ⟨t, h1, h2, rfl⟩
  · rintro ⟨t', h1, h2, he⟩
    have := lerp_inj h he; subst this; exact ⟨h1, h2⟩

theorem onSeg_left (a b : V2 K) : OnSeg a b a := ⟨0, le_refl _, zero_le_one, (lerp_zero a b).symm⟩
theorem onSeg_right (a b : V2 K) : OnSeg a b b := ⟨1, zero_le_one, le_refl _, (lerp_one a b).symm⟩

/-- Two collinear segments that share a point: an endpoint of one lies on the other. -/
theorem collinear_overlap {a b c d p : V2 K} (hab : a ≠ b) (hcd : c ≠ d) (hc : orient2d a b c = 0) (hd : orient2d a b d = 0)
    (h : Common a b c d p) : OnSeg a b c ∨ OnSeg a b d ∨ OnSeg c d a ∨ OnSeg c d b := by
  obtain ⟨g, rfl⟩ := collinear_lerp hab hc
  obtain ⟨e, rfl⟩ := collinear_lerp hab hd
  have hge : g ≠ e := fun h' => hcd (by rw [h'])
  obtain ⟨⟨s, hs0, hs1, hs⟩, ⟨t, ht0, ht1, ht⟩⟩ := h
  rw [hs, lerp_lerp] at ht
  have hst := lerp_inj hab ht
  by_cases hg : 0 ≤ g ∧ g ≤ 1
  · exact Or.inl ⟨g, hg.1, hg.2, rfl⟩
  by_cases he : 0 ≤ e ∧ e ≤ 1
  · exact Or.inr (Or.inl ⟨e, he.1, he.2, rfl⟩)
  right; right
  -- 0 lies between g and e
  have h0 : e - g ≠ 0 := sub_ne_zero.2 (Ne.symm hge)
  left
  refine ⟨-g / (e - g), ?_, ?_, ?_⟩
  · rcases lt_or_gt_of_ne hge with hlt | hgt
    · have hp : 0 < e - g := sub_pos.2 hlt
      apply div_nonneg _ hp.le
      by_contra hc'
      have hgp : 0 < g := by linarith
      have hg1 : 1 < g := by by_contra h1; exact hg ⟨hgp.le, not_lt.1 h1⟩
      nlinarith [mul_nonneg ht0 hp.le]
    · have hp : 0 < g - e := sub_pos.2 hgt
      rw [div_nonneg_iff]; right
      refine ⟨?_, by linarith⟩
      by_contra hc'
      have hgn : g < 0 := by linarith
      nlinarith [mul_nonneg ht0 hp.le]
  · rcases lt_or_gt_of_ne hge with hlt | hgt
    · have hp : 0 < e - g := sub_pos.2 hlt
      rw [div_le_one hp]
      by_contra hc'
      have hen : e < 0 := by linarith
      nlinarith [mul_nonneg (sub_nonneg.2 ht1) hp.le]
    · have hp : 0 < g - e := sub_pos.2 hgt
      have hn : e - g < 0 := by linarith
      rw [div_le_one_of_neg hn]
      by_contra hc'
      have hep : 0 < e := by linarith
      have he1 : 1 < e := by by_contra h1; exact he ⟨hep.le, not_lt.1 h1⟩
      nlinarith [mul_nonneg (sub_nonneg.2 ht1) hp.le]
  · rw [lerp_lerp]
    have : g + -g / (e - g) * (e - g) = 0 := by field_simp; ring
    rw [this, lerp_zero]

/-- The parallel case. -/
theorem parallel_spec {a b c d : V2 K} (hab : a ≠ b) (hcd : c ≠ d) (hp : Parallel a b c d) :
    ((parallelInt a b c d).1 = .edge ∧ ∃ p, (parallelInt a b c d).2 = some p ∧ Common a b c d p) ∨
    ((parallelInt a b c d).1 = .none ∧ ∀ p, ¬ Common a b c d p) := by
  unfold parallelInt collinear
  by_cases hc : orient2d a b c = 0
  · have hd := parallel_collinear_d hp hc
    have hp' : Parallel c d a b := by unfold Parallel at *; linear_combination -hp
    have ha' : orient2d c d a = 0 := by
      obtain ⟨g, rfl⟩ := collinear_lerp hab hc
      obtain ⟨e, rfl⟩ := collinear_lerp hab hd
      unfold orient2d lerp; ring
    have hb' : orient2d c d b = 0 := parallel_collinear_d hp' ha'
    simp only [hc, decide_true, Bool.not_true, Bool.false_eq_true, if_false]
    by_cases h1 : between a b c = true
    · left; simp only [h1, if_true]
      exact ⟨trivial, c, rfl, (onSeg_between hab hc).1 h1, onSeg_left c d⟩
    by_cases h2 : between a b d = true
    · left; simp only [h1, h2, if_true, if_false, Bool.false_eq_true]
      exact ⟨trivial, d, rfl, (onSeg_between hab hd).1 h2, onSeg_right c d⟩
    by_cases h3 : between c d a = true
    · left; simp only [h1, h2, h3, if_true, if_false, Bool.false_eq_true]
      exact ⟨trivial, a, rfl, onSeg_left a b, (onSeg_between hcd ha').1 h3⟩
    by_cases h4 : between c d b = true
    · left; simp only [h1, h2, h3, h4, if_true, if_false, Bool.false_eq_true]
      exact ⟨trivial, b, rfl, onSeg_right a b, (onSeg_between hcd hb').1 h4⟩
    right; simp only [h1, h2, h3, h4, if_false, Bool.false_eq_true]
    refine ⟨trivial, fun p hcom => ?_⟩
    rcases collinear_overlap hab hcd hc hd hcom with h | h | h | h
    · exact h1 ((onSeg_between hab hc).2 h)
    · exact h2 ((onSeg_between hab hd).2 h)
    · exact h3 ((onSeg_between hcd ha').2 h)
    · exact h4 ((onSeg_between hcd hb').2 h)
  · right
    simp only [hc, decide_false, Bool.not_false, if_true]
    exact ⟨trivial, fun p h => hc (parallel_common_collinear hp h)⟩

/-- The non-parallel case. -/
theorem crossing_spec {a b c d : V2 K} (hp : ¬ Parallel a b c d) :
    ∃ s t code, segmentIntersection a b c d = (code, some (lerp a b s), some (s, t)) ∧ lerp a b s = lerp c d t ∧
      (∀ s' t', lerp a b s' = lerp c d t' → s' = s ∧ t' = t) ∧
      code = (if 0 < s ∧ s < 1 ∧ 0 < t ∧ t < 1 then .proper else if 0 > s ∨ s > 1 ∨ 0 > t ∨ t > 1 then .none else .vertex) := by
  have hm := lines_meet hp
  have hD : ¬ a.x * (d.y - c.y) + b.x * (c.y - d.y) + d.x * (b.y - a.y) + c.x * (a.y - b.y) = 0 := fun h => hp ((denom_zero_iff a b c d).1 h)
  unfold segmentIntersection
  simp only [hD, if_false]
  generalize hDe : a.x * (d.y - c.y) + b.x * (c.y - d.y) + d.x * (b.y - a.y) + c.x * (a.y - b.y) = D at *
  generalize hN1 : a.x * (d.y - c.y) + c.x * (a.y - d.y) + d.x * (c.y - a.y) = n1 at *
  generalize hN2 : -(a.x * (c.y - b.y) + b.x * (a.y - c.y) + c.x * (b.y - a.y)) = n2 at *
  refine ⟨n1 / D, n2 / D, _, rfl, (hm _ _).2 ⟨rfl, rfl⟩, fun s' t' h => (hm s' t').1 h, ?_⟩
  by_cases h1 : 0 < n1 / D ∧ n1 / D < 1 ∧ 0 < n2 / D ∧ n2 / D < 1
  · simp only [h1, and_self, if_true]
  by_cases h2 : 0 > n1 / D ∨ n1 / D > 1 ∨ 0 > n2 / D ∨ n2 / D > 1
  · simp only [h1, h2, if_false, if_true]
  simp only [h1, h2, if_false]
  have h01 : ∀ n : K, (n = 0 ∨ n = D) ↔ (n / D = 0 ∨ n / D = 1) := by
    intro n
    rw [div_eq_one_iff_eq hD]
    constructor
    · rintro (h | h); · left; rw [h, zero_div]
      · right; exact h
    · rintro (h | h)
      · left; rcases div_eq_zero_iff.1 h with h | h; · exact h
        · exact absurd h hD
      · right; exact h
  simp only [h01]
  by_cases hb : n2 / D = 0 ∨ n2 / D = 1
  · rw [if_pos hb]
  by_cases hc : n1 / D = 0 ∨ n1 / D = 1
  · rw [if_neg hb, if_pos hc]
  exfalso
  simp only [not_or, not_lt, gt_iff_lt] at h2 hb hc
  apply h1
  refine ⟨lt_of_le_of_ne h2.1 (Ne.symm hc.1), lt_of_le_of_ne h2.2.1 hc.2, lt_of_le_of_ne h2.2.2.1 (Ne.symm hb.1), lt_of_le_of_ne h2.2.2.2 hb.2⟩

theorem common_iff {a b c d : V2 K} (hp : ¬ Parallel a b c d) {s t : K} (hst : lerp a b s = lerp c d t)
    (hu : ∀ s' t', lerp a b s' = lerp c d t' → s' = s ∧ t' = t) (p : V2 K) :
    Common a b c d p ↔ p = lerp a b s ∧ 0 ≤ s ∧ s ≤ 1 ∧ 0 ≤ t ∧ t ≤ 1 := by
  constructor
  · rintro ⟨⟨s', h1, h2, h3⟩, ⟨t', h4, h5, h6⟩⟩
    obtain ⟨rfl, rfl⟩ := hu s' t' (h3 ▸ h6)
    exact ⟨h3, h1, h2, h4, h5⟩
  · rintro ⟨rfl, h1, h2, h3, h4⟩
    exact ⟨⟨s, h1, h2, rfl⟩, ⟨t, h3, h4, hst⟩⟩

/-- The classification of two proper segments (`a ≠ b`, `c ≠ d`) in exact arithmetic, for all coordinates:
'0' iff they share no point; 'e' iff they are parallel and share a point; 'v' iff they are not parallel and share a point that is an endpoint;
'1' iff they are not parallel and share a point that is no endpoint. The code is always one of these.
Missing: segments of length zero (C41_degenerate_fails) and rounding. -/
theorem C41_classification_partial (a b c d : V2 K) (hab : a ≠ b) (hcd : c ≠ d) :
    ((segmentIntersection a b c d).1 = .none ↔ ∀ p, ¬ Common a b c d p) ∧
    ((segmentIntersection a b c d).1 = .edge ↔ Parallel a b c d ∧ ∃ p, Common a b c d p) ∧
    ((segmentIntersection a b c d).1 = .vertex ↔ ¬ Parallel a b c d ∧ ∃ p, Common a b c d p ∧ (p = a ∨ p = b ∨ p = c ∨ p = d)) ∧
    ((segmentIntersection a b c d).1 = .proper ↔ ¬ Parallel a b c d ∧ ∃ p, Common a b c d p ∧ p ≠ a ∧ p ≠ b ∧ p ≠ c ∧ p ≠ d) := by
  by_cases hp : Parallel a b c d
  · have heq : (segmentIntersection a b c d).1 = (parallelInt a b c d).1 := by
      simp only [segmentIntersection, (denom_zero_iff a b c d).2 hp, if_true]
    rw [heq]
    rcases parallel_spec hab hcd hp with ⟨h1, p, _, hc⟩ | ⟨h1, h2⟩
    · rw [h1]
      refine ⟨⟨fun h => (by cases h), fun h => absurd hc (h p)⟩, ⟨fun _ => ⟨hp, p, hc⟩, fun _ => rfl⟩,
        ⟨fun h => (by cases h), fun h => absurd hp h.1⟩, ⟨fun h => (by cases h), fun h => absurd hp h.1⟩⟩
    · rw [h1]
      refine ⟨⟨fun _ => h2, fun _ => rfl⟩, ⟨fun h => (by cases h), fun h => absurd h.2.choose_spec (h2 _)⟩,
        ⟨fun h => (by cases h), fun h => absurd hp h.1⟩, ⟨fun h => (by cases h), fun h => absurd hp h.1⟩⟩
  · obtain ⟨s, t, code, heq, hst, hu, hcode⟩ := crossing_spec hp
    have hcom := common_iff hp hst hu
    rw [heq]
    simp only [hcom]
    have hsa : lerp a b s = a ↔ s = 0 := ⟨fun h => lerp_inj hab (h.trans (lerp_zero a b).symm), fun h => by rw [h, lerp_zero]⟩
    have hsb : lerp a b s = b ↔ s = 1 := ⟨fun h => lerp_inj hab (h.trans (lerp_one a b).symm), fun h => by rw [h, lerp_one]⟩
    have htc : lerp a b s = c ↔ t = 0 := by rw [hst]; exact ⟨fun h => lerp_inj hcd (h.trans (lerp_zero c d).symm), fun h => by rw [h, lerp_zero]⟩
    have htd : lerp a b s = d ↔ t = 1 := by rw [hst]; exact ⟨fun h => lerp_inj hcd (h.trans (lerp_one c d).symm), fun h => by rw [h, lerp_one]⟩
    have hpar : ¬ (Parallel a b c d ∧ ∃ p, p = lerp a b s ∧ 0 ≤ s ∧ s ≤ 1 ∧ 0 ≤ t ∧ t ≤ 1) := fun h => hp h.1
    by_cases h1 : 0 < s ∧ s < 1 ∧ 0 < t ∧ t < 1
    · rw [if_pos h1] at hcode; subst hcode
      obtain ⟨g1, g2, g3, g4⟩ := h1
      refine ⟨⟨fun h => (by cases h), fun h => absurd ⟨rfl, g1.le, g2.le, g3.le, g4.le⟩ (h (lerp a b s))⟩,
        ⟨fun h => (by cases h), fun h => absurd h hpar⟩, ⟨fun h => (by cases h), ?_⟩, ⟨fun _ => ⟨hp, _, ⟨rfl, g1.le, g2.le, g3.le, g4.le⟩, ?_⟩, fun _ => rfl⟩⟩
      · rintro ⟨_, p, ⟨rfl, _⟩, h | h | h | h⟩
        · rw [hsa] at h; linarith
        · rw [hsb] at h; linarith
        · rw [htc] at h; linarith
        · rw [htd] at h; linarith
      · simp only [ne_eq, hsa, hsb, htc, htd]
        exact ⟨g1.ne', g2.ne, g3.ne', g4.ne⟩
    · rw [if_neg h1] at hcode
      by_cases h2 : 0 > s ∨ s > 1 ∨ 0 > t ∨ t > 1
      · rw [if_pos h2] at hcode; subst hcode
        have hno : ∀ p, ¬ (p = lerp a b s ∧ 0 ≤ s ∧ s ≤ 1 ∧ 0 ≤ t ∧ t ≤ 1) := by
          rintro p ⟨_, g1, g2, g3, g4⟩
          rcases h2 with h | h | h | h <;> linarith
        refine ⟨⟨fun _ => hno, fun _ => rfl⟩, ⟨fun h => (by cases h), fun h => absurd h hpar⟩,
          ⟨fun h => (by cases h), fun ⟨_, p, h, _⟩ => absurd h (hno p)⟩, ⟨fun h => (by cases h), fun ⟨_, p, h, _⟩ => absurd h (hno p)⟩⟩
      · rw [if_neg h2] at hcode; subst hcode
        simp only [not_or, not_lt, gt_iff_lt] at h2
        obtain ⟨g1, g2, g3, g4⟩ := h2
        have hend : s = 0 ∨ s = 1 ∨ t = 0 ∨ t = 1 := by
          by_contra hc
          simp only [not_or] at hc
          exact h1 ⟨lt_of_le_of_ne g1 (Ne.symm hc.1), lt_of_le_of_ne g2 hc.2.1, lt_of_le_of_ne g3 (Ne.symm hc.2.2.1), lt_of_le_of_ne g4 hc.2.2.2⟩
        refine ⟨⟨fun h => (by cases h), fun h => absurd ⟨rfl, g1, g2, g3, g4⟩ (h (lerp a b s))⟩,
          ⟨fun h => (by cases h), fun h => absurd h hpar⟩, ⟨fun _ => ⟨hp, _, ⟨rfl, g1, g2, g3, g4⟩, ?_⟩, fun _ => rfl⟩,
          ⟨fun h => (by cases h), ?_⟩⟩
        · simp only [hsa, hsb, htc, htd]; exact hend
        · rintro ⟨_, p, ⟨rfl, _⟩, n1, n2, n3, n4⟩
          simp only [ne_eq, hsa, hsb, htc, htd] at n1 n2 n3 n4
          rcases hend with h | h | h | h
          · exact absurd h n1
          · exact absurd h n2
          · exact absurd h n3
          · exact absurd h n4

/-- The returned point: whenever the code is not '0' it is a common point of both segments; for non-parallel segments it is, for every code, the
only common point of the two lines, and the returned parameters are its parameters on them. -/
theorem C41_point (a b c d : V2 K) (hab : a ≠ b) (hcd : c ≠ d) :
    ((segmentIntersection a b c d).1 ≠ .none → ∃ p, (segmentIntersection a b c d).2.1 = some p ∧ Common a b c d p) ∧
    (¬ Parallel a b c d → ∃ p s t, (segmentIntersection a b c d).2 = (some p, some (s, t)) ∧ p = lerp a b s ∧ p = lerp c d t ∧
      ∀ s' t', lerp a b s' = lerp c d t' → lerp a b s' = p) := by
  constructor
  · intro hne
    by_cases hp : Parallel a b c d
    · have heq : segmentIntersection a b c d = ((parallelInt a b c d).1, (parallelInt a b c d).2, Option.none) := by
        simp only [segmentIntersection, (denom_zero_iff a b c d).2 hp, if_true]
      rw [heq] at hne ⊢
      rcases parallel_spec hab hcd hp with ⟨_, p, h, hc⟩ | ⟨h, _⟩
      · exact ⟨p, h, hc⟩
      · exact absurd h hne
    · obtain ⟨s, t, code, heq, hst, hu, hcode⟩ := crossing_spec hp
      rw [heq] at hne ⊢
      refine ⟨_, rfl, (common_iff hp hst hu _).2 ⟨rfl, ?_⟩⟩
      by_contra hc
      apply hne
      simp only [hcode]
      by_cases h1 : 0 < s ∧ s < 1 ∧ 0 < t ∧ t < 1
      · exact absurd ⟨h1.1.le, h1.2.1.le, h1.2.2.1.le, h1.2.2.2.le⟩ hc
      · rw [if_neg h1, if_pos]
        by_contra h2
        simp only [not_or, not_lt, gt_iff_lt] at h2
        exact hc h2
  · intro hp
    obtain ⟨s, t, code, heq, hst, hu, _⟩ := crossing_spec hp
    exact ⟨lerp a b s, s, t, by rw [heq], rfl, hst, fun s' t' h => by rw [(hu s' t' h).1]⟩

/-- The code never stays undetermined, for any input. -/
theorem C41_total (a b c d : V2 K) : (segmentIntersection a b c d).1 ≠ .unset := by
  by_cases hp : Parallel a b c d
  · have heq : (segmentIntersection a b c d).1 = (parallelInt a b c d).1 := by
      simp only [segmentIntersection, (denom_zero_iff a b c d).2 hp, if_true]
    rw [heq]; unfold parallelInt
    split; · simp
    split; · simp
    split; · simp
    split; · simp
    split <;> simp
  · obtain ⟨s, t, code, heq, _, _, hcode⟩ := crossing_spec hp
    rw [heq, hcode]
    split; · simp
    split <;> simp

/-- For a segment of length zero the answer can be wrong: the point (0,0) "overlaps" the segment from (1,0) to (2,1), of which it is no point. -/
theorem C41_degenerate_fails : ∃ a b c d : V2 ℚ, a = b ∧ (segmentIntersection a b c d).1 = .edge ∧ ∀ p, ¬ Common a b c d p := by
  refine ⟨⟨0, 0⟩, ⟨0, 0⟩, ⟨1, 0⟩, ⟨2, 1⟩, rfl, by decide +kernel, ?_⟩
  rintro p ⟨⟨s, _, _, rfl⟩, ⟨t, h1, h2, h⟩⟩
  have hx := congrArg V2.x h
  simp only [lerp] at hx
  linarith

/-- The hypotheses are met, and all four codes occur. -/
theorem C41_demo :
    (segmentIntersection (⟨0, 0⟩ : V2 ℚ) ⟨2, 2⟩ ⟨0, 2⟩ ⟨2, 0⟩) = (.proper, some ⟨1, 1⟩, some (1/2, 1/2)) ∧
    (segmentIntersection (⟨0, 0⟩ : V2 ℚ) ⟨2, 2⟩ ⟨1, 1⟩ ⟨2, 0⟩).1 = .vertex ∧
    (segmentIntersection (⟨0, 0⟩ : V2 ℚ) ⟨2, 2⟩ ⟨1, 1⟩ ⟨3, 3⟩).1 = .edge ∧
    (segmentIntersection (⟨0, 0⟩ : V2 ℚ) ⟨2, 2⟩ ⟨3, 0⟩ ⟨3, 1⟩).1 = .none := by
  refine ⟨by decide +kernel, by decide +kernel, by decide +kernel, by decide +kernel⟩

end Mcut.Geom
