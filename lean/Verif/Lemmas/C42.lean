import Verif.Spec.C42
import Mathlib.Tactic.Ring
import Mathlib.Tactic.FieldSimp
import Mathlib.Tactic.Linarith
import Mathlib.Tactic.LinearCombination
import Mathlib.Tactic.ByContra
import Mathlib.Algebra.Order.Ring.Rat

namespace Mcut.Geom

variable {K : Type*} [Field K] [LinearOrder K]

/-- The code as a function of the signed distances of the endpoints. -/
def signCode (x y : K) : PlaneCode :=
  if x = 0 ∧ y = 0 then .inPlane else if x = 0 then .q else if y = 0 then .r
  else if (y < 0 ∧ x < 0) ∨ (y > 0 ∧ x > 0) then .none else .one

/-- Signed distance (up to the length of `n`) from the plane. -/
def side (n : V3 K) (d : K) (x : V3 K) : K := dot x n - d

theorem onPlane_iff {n : V3 K} {d : K} {x : V3 K} : OnPlane n d x ↔ side n d x = 0 := by
  unfold OnPlane side dot; rw [sub_eq_zero]

theorem side_lerp3 (n : V3 K) (d : K) (q r : V3 K) (t : K) :
    side n d (lerp3 q r t) = side n d q + t * (side n d r - side n d q) := by
  unfold side dot lerp3; ring

theorem lerp3_zero (q r : V3 K) : lerp3 q r 0 = q := by simp [lerp3]
theorem lerp3_one (q r : V3 K) : lerp3 q r 1 = r := by simp [lerp3]

theorem type_sign (a b c q r : V3 K) : segmentPlaneType a b c q r = signCode (orient3d a b c q) (orient3d a b c r) := rfl

variable [IsStrictOrderedRing K]

theorem param_mem {x y : K} (hd : y - x ≠ 0) :
    (0 < -x / (y - x) ∧ -x / (y - x) < 1) ↔ (x < 0 ∧ 0 < y) ∨ (0 < x ∧ y < 0) := by
  rcases lt_or_gt_of_ne hd with h | h
  · rw [div_pos_iff, div_lt_one_of_neg h]
    constructor
    · rintro ⟨⟨_, h2⟩ | ⟨h1, _⟩, h3⟩
      · exact absurd h2 (not_lt.2 h.le)
      · right; constructor <;> linarith
    · rintro (⟨h1, h2⟩ | ⟨h1, h2⟩)
      · exfalso; linarith
      · exact ⟨Or.inr ⟨by linarith, h⟩, by linarith⟩
  · rw [div_pos_iff, div_lt_one h]
    constructor
    · rintro ⟨⟨h1, _⟩ | ⟨_, h2⟩, h3⟩
      · left; constructor <;> linarith
      · exact absurd h2 (not_lt.2 h.le)
    · rintro (⟨h1, h2⟩ | ⟨h1, h2⟩)
      · exact ⟨Or.inl ⟨by linarith, h⟩, by linarith⟩
      · exfalso; linarith

theorem segmentPlane_sign (n : V3 K) (d : K) (q r : V3 K) : (segmentPlane n d q r).1 = signCode (side n d q) (side n d r) := by
  have h1 : d - dot q n = -side n d q := by unfold side; ring
  have h2 : dot (sub3 r q) n = side n d r - side n d q := by unfold side dot sub3; ring
  unfold segmentPlane
  simp only [h1, h2]
  generalize side n d q = x
  generalize side n d r = y
  unfold signCode
  by_cases hd : y - x = 0
  · rw [if_pos hd]
    have : y = x := sub_eq_zero.1 hd
    subst this
    by_cases hy : y = 0
    · simp [hy]
    · rw [if_neg (by simpa using hy), if_neg (fun h => hy h.1), if_neg hy, if_neg hy, if_pos]
      rcases lt_or_gt_of_ne hy with h | h
      · left; exact ⟨h, h⟩
      · right; exact ⟨h, h⟩
  · rw [if_neg hd]
    by_cases ht : 0 < -x / (y - x) ∧ -x / (y - x) < 1
    · rw [if_pos ht]
      rw [param_mem hd] at ht
      rw [if_neg, if_neg, if_neg, if_neg]
      · rintro (⟨g1, g2⟩ | ⟨g1, g2⟩) <;> rcases ht with ⟨h1, h2⟩ | ⟨h1, h2⟩ <;> exact absurd g1 (by first | exact not_lt.2 h2.le | exact fun _ => absurd g2 (not_lt.2 h1.le))
      · rintro rfl; rcases ht with ⟨_, h2⟩ | ⟨_, h2⟩ <;> exact lt_irrefl _ h2
      · rintro rfl; rcases ht with ⟨h2, _⟩ | ⟨h2, _⟩ <;> exact lt_irrefl _ h2
      · rintro ⟨rfl, _⟩; rcases ht with ⟨h2, _⟩ | ⟨h2, _⟩ <;> exact lt_irrefl _ h2
    · rw [if_neg ht]
      rw [param_mem hd] at ht
      by_cases hx : x = 0
      · subst hx
        have hy : ¬ y = 0 := fun h => hd (by rw [h, sub_zero])
        simp [hy]
      · have hx' : ¬ -x = 0 := fun h => hx (by simpa using h)
        rw [if_neg hx', if_neg (show ¬ (x = 0 ∧ y = 0) from fun h => hx h.1), if_neg hx]
        by_cases hy : y = 0
        · subst hy; simp
        · rw [if_neg (show ¬ -x = y - x from fun h => hy (by linear_combination -h)), if_neg hy, if_pos]
          rcases lt_or_gt_of_ne hx with h1 | h1 <;> rcases lt_or_gt_of_ne hy with h2 | h2
          · left; exact ⟨h2, h1⟩
          · exact absurd (Or.inl ⟨h1, h2⟩) ht
          · exact absurd (Or.inr ⟨h1, h2⟩) ht
          · right; exact ⟨h2, h1⟩

/-- The sign code is the geometric classification, for any affine "distance" whose zero set is the plane. -/
theorem signCode_spec {plane : V3 K → Prop} {f : V3 K → K} (hf : ∀ x, plane x ↔ f x = 0)
    (haff : ∀ q r t, f (lerp3 q r t) = f q + t * (f r - f q)) (q r : V3 K) (code : PlaneCode) :
    signCode (f q) (f r) = code ↔ PlaneCodeSpec plane q r code := by
  have hseg0 : ∀ (g : V3 K → Prop), (∀ p, OnSeg3 q r p → g p) ↔ ∀ t, 0 ≤ t → t ≤ 1 → g (lerp3 q r t) := fun g =>
    ⟨fun h t h1 h2 => h _ ⟨t, h1, h2, rfl⟩, fun h p ⟨t, h1, h2, hp⟩ => hp ▸ h t h1 h2⟩
  have hone : (∃ p, OnSeg3 q r p ∧ plane p) ↔ ∃ t, 0 ≤ t ∧ t ≤ 1 ∧ f q + t * (f r - f q) = 0 := by
    constructor
    · rintro ⟨_, ⟨t, h1, h2, rfl⟩, hp⟩
      exact ⟨t, h1, h2, by rw [← haff]; exact (hf _).1 hp⟩
    · rintro ⟨t, h1, h2, h⟩
      exact ⟨_, ⟨t, h1, h2, rfl⟩, (hf _).2 (by rw [haff]; exact h)⟩
  have hall : (∀ p, OnSeg3 q r p → plane p) ↔ f q = 0 ∧ f r = 0 := by
    rw [hseg0]; simp only [hf, haff]
    constructor
    · intro h
      have h0 := h 0 le_rfl zero_le_one
      have h1 := h 1 zero_le_one le_rfl
      exact ⟨by linear_combination h0, by linear_combination h1⟩
    · rintro ⟨h1, h2⟩ t _ _; rw [h1, h2]; ring
  have hnone : (∀ p, OnSeg3 q r p → ¬ plane p) ↔ (f r < 0 ∧ f q < 0) ∨ (f r > 0 ∧ f q > 0) := by
    have : (∀ p, OnSeg3 q r p → ¬ plane p) ↔ ¬ ∃ p, OnSeg3 q r p ∧ plane p := by
      constructor
      · rintro h ⟨p, h1, h2⟩; exact h p h1 h2
      · intro h p h1 h2; exact h ⟨p, h1, h2⟩
    rw [this, hone]
    generalize f q = x
    generalize f r = y
    constructor
    · intro h
      have hx : x ≠ 0 := fun hx => h ⟨0, le_rfl, zero_le_one, by rw [hx]; ring⟩
      have hy : y ≠ 0 := fun hy => h ⟨1, zero_le_one, le_rfl, by rw [hy]; ring⟩
      have key : ¬ ((x < 0 ∧ 0 < y) ∨ (0 < x ∧ y < 0)) := by
        intro hc
        have hd : y - x ≠ 0 := by rcases hc with ⟨h1, h2⟩ | ⟨h1, h2⟩ <;> intro h' <;> linarith
        have := (param_mem hd).2 hc
        exact h ⟨_, this.1.le, this.2.le, by field_simp; ring⟩
      rcases lt_or_gt_of_ne hx with h1 | h1 <;> rcases lt_or_gt_of_ne hy with h2 | h2
      · left; exact ⟨h2, h1⟩
      · exact absurd (Or.inl ⟨h1, h2⟩) key
      · exact absurd (Or.inr ⟨h1, h2⟩) key
      · right; exact ⟨h2, h1⟩
    · rintro (⟨h1, h2⟩ | ⟨h1, h2⟩) ⟨t, h3, h4, h5⟩
      · nlinarith [mul_nonneg h3 (neg_nonneg.2 h1.le), mul_nonneg (sub_nonneg.2 h4) (neg_nonneg.2 h2.le)]
      · nlinarith [mul_nonneg h3 h1.le, mul_nonneg (sub_nonneg.2 h4) h2.le]
  have hex : (∃ p, OnSeg3 q r p ∧ plane p) ↔ ¬ ((f r < 0 ∧ f q < 0) ∨ (f r > 0 ∧ f q > 0)) := by
    rw [← hnone]; push Not; rfl
  cases code <;> simp only [PlaneCodeSpec, hall, hnone, hex] <;> (try simp only [hf])
  all_goals generalize f q = x
  all_goals generalize f r = y
  all_goals unfold signCode
  · by_cases hx : x = 0 <;> by_cases hy : y = 0 <;> simp [hx, hy]
    split <;> simp
  · by_cases hx : x = 0 <;> by_cases hy : y = 0 <;> simp [hx, hy]
    split <;> simp
  · by_cases hx : x = 0 <;> by_cases hy : y = 0 <;> simp [hx, hy]
    split <;> simp
  · by_cases hx : x = 0 <;> by_cases hy : y = 0 <;> simp [hx, hy]
    constructor
    · intro h
      by_cases h1 : y < 0
      · by_cases h2 : x < 0
        · exact Or.inl ⟨h1, h2⟩
        · exact Or.inr (h (fun _ => not_lt.1 h2))
      · exact Or.inr (h (fun h' => absurd h' h1))
    · rintro (⟨h1, h2⟩ | h) h'
      · exact absurd h2 (not_lt.2 (h' h1))
      · exact h
  · by_cases hx : x = 0 <;> by_cases hy : y = 0 <;> simp [hx, hy]

theorem signCode_scale {l : K} (hl : l ≠ 0) (x y : K) : signCode (l * x) (l * y) = signCode x y := by
  have h0 : ∀ z : K, l * z = 0 ↔ z = 0 := fun z => by simp [hl]
  unfold signCode
  simp only [h0]
  have : (l * y < 0 ∧ l * x < 0 ∨ l * y > 0 ∧ l * x > 0) ↔ (y < 0 ∧ x < 0 ∨ y > 0 ∧ x > 0) := by
    rcases lt_or_gt_of_ne hl with h | h
    · simp only [gt_iff_lt, mul_neg_iff, mul_pos_iff, h, not_lt.2 h.le, false_and, true_and, false_or, or_false]
      tauto
    · simp only [gt_iff_lt, mul_neg_iff, mul_pos_iff, h, not_lt.2 h.le, false_and, true_and, or_false]
  simp only [this]

/-! ## The plane of three points -/

/-- Normal of the triangle. -/
def triNormal (a b c : V3 K) : V3 K := cross (sub3 b a) (sub3 c a)

theorem orient3d_side (a b c x : V3 K) : orient3d a b c x = -side (triNormal a b c) (dot a (triNormal a b c)) x := by
  unfold orient3d side triNormal cross sub3 dot; ring

theorem triNormal_ne {a b c : V3 K} (h : NotCollinear3 a b c) : triNormal a b c ≠ ⟨0, 0, 0⟩ := by
  intro h0
  obtain ⟨hab, hl⟩ := h
  unfold triNormal cross sub3 at h0
  simp only [V3.mk.injEq] at h0
  obtain ⟨h1, h2, h3⟩ := h0
  have hne : b.x - a.x ≠ 0 ∨ b.y - a.y ≠ 0 ∨ b.z - a.z ≠ 0 := by
    by_contra hc
    push Not at hc
    exact hab (V3.ext (by linear_combination -hc.1) (by linear_combination -hc.2.1) (by linear_combination -hc.2.2))
  rcases hne with h | h | h
  · refine hl ⟨(c.x - a.x) / (b.x - a.x), V3.ext ?_ ?_ ?_⟩ <;> simp only [lerp3] <;> field_simp
    · ring
    · linear_combination h3
    · linear_combination -h2
  · refine hl ⟨(c.y - a.y) / (b.y - a.y), V3.ext ?_ ?_ ?_⟩ <;> simp only [lerp3] <;> field_simp
    · linear_combination -h3
    · ring
    · linear_combination h1
  · refine hl ⟨(c.z - a.z) / (b.z - a.z), V3.ext ?_ ?_ ?_⟩ <;> simp only [lerp3] <;> field_simp
    · linear_combination h2
    · linear_combination -h1
    · ring

theorem ne_zero3 {m : V3 K} (h : m ≠ ⟨0, 0, 0⟩) : m.x ≠ 0 ∨ m.y ≠ 0 ∨ m.z ≠ 0 := by
  by_contra hc
  push Not at hc
  exact h (V3.ext hc.1 hc.2.1 hc.2.2)

theorem dot_self_pos {m : V3 K} (h : m ≠ ⟨0, 0, 0⟩) : 0 < dot m m := by
  unfold dot
  rcases ne_zero3 h with h | h | h
  · have := mul_self_pos.2 h; have := mul_self_nonneg m.y; have := mul_self_nonneg m.z; linarith
  · have := mul_self_pos.2 h; have := mul_self_nonneg m.x; have := mul_self_nonneg m.z; linarith
  · have := mul_self_pos.2 h; have := mul_self_nonneg m.x; have := mul_self_nonneg m.y; linarith

theorem solve3 {D N1 N2 x a u v : K} (hD : D ≠ 0) (h : (x - a) * D = N1 * u + N2 * v) : x = a + N1 / D * u + N2 / D * v := by
  field_simp; linear_combination h

theorem onPlaneOf_iff {a b c : V3 K} (h : NotCollinear3 a b c) (x : V3 K) :
    OnPlaneOf a b c x ↔ orient3d a b c x = 0 := by
  constructor
  · rintro ⟨u, v, rfl⟩; unfold orient3d; ring
  · intro h0
    have hm := ne_zero3 (triNormal_ne h)
    unfold triNormal cross sub3 at hm
    simp only at hm
    unfold orient3d at h0
    rcases hm with h1 | h1 | h1
    · refine ⟨((x.y - a.y) * (c.z - a.z) - (x.z - a.z) * (c.y - a.y)) / ((b.y - a.y) * (c.z - a.z) - (b.z - a.z) * (c.y - a.y)),
        ((b.y - a.y) * (x.z - a.z) - (b.z - a.z) * (x.y - a.y)) / ((b.y - a.y) * (c.z - a.z) - (b.z - a.z) * (c.y - a.y)), V3.ext ?_ ?_ ?_⟩ <;>
        apply solve3 h1
      · linear_combination -h0
      · ring
      · ring
    · refine ⟨((x.z - a.z) * (c.x - a.x) - (x.x - a.x) * (c.z - a.z)) / ((b.z - a.z) * (c.x - a.x) - (b.x - a.x) * (c.z - a.z)),
        ((b.z - a.z) * (x.x - a.x) - (b.x - a.x) * (x.z - a.z)) / ((b.z - a.z) * (c.x - a.x) - (b.x - a.x) * (c.z - a.z)), V3.ext ?_ ?_ ?_⟩ <;>
        apply solve3 h1
      · ring
      · linear_combination -h0
      · ring
    · refine ⟨((x.x - a.x) * (c.y - a.y) - (x.y - a.y) * (c.x - a.x)) / ((b.x - a.x) * (c.y - a.y) - (b.y - a.y) * (c.x - a.x)),
        ((b.x - a.x) * (x.y - a.y) - (b.y - a.y) * (x.x - a.x)) / ((b.x - a.x) * (c.y - a.y) - (b.y - a.y) * (c.x - a.x)), V3.ext ?_ ?_ ?_⟩ <;>
        apply solve3 h1
      · ring
      · ring
      · linear_combination -h0

theorem orient3d_affine (a b c q r : V3 K) (t : K) :
    orient3d a b c (lerp3 q r t) = orient3d a b c q + t * (orient3d a b c r - orient3d a b c q) := by
  unfold orient3d lerp3; ring

/-! ## The normal of a planar polygon -/

def smul3 (l : K) (m : V3 K) : V3 K := ⟨l * m.x, l * m.y, l * m.z⟩

theorem cross_parallel {u v m : V3 K} (hm : m ≠ ⟨0, 0, 0⟩) (hu : dot u m = 0) (hv : dot v m = 0) : ∃ l, cross u v = smul3 l m := by
  have h0 : dot m m ≠ 0 := (dot_self_pos hm).ne'
  refine ⟨dot (cross u v) m / dot m m, ?_⟩
  have key : ∀ c N k : K, c * dot m m = N * k → c = N / dot m m * k := fun c N k h => by field_simp; linear_combination h
  unfold smul3
  apply V3.ext <;> simp only <;> apply key <;> unfold dot cross at * <;> simp only
  · linear_combination (v.z * m.y - v.y * m.z) * hu - (u.z * m.y - u.y * m.z) * hv
  · linear_combination (v.x * m.z - v.z * m.x) * hu - (u.x * m.z - u.z * m.x) * hv
  · linear_combination (v.y * m.x - v.x * m.y) * hu - (u.y * m.x - u.x * m.y) * hv

theorem normalFrom_parallel {m v0 : V3 K} (hm : m ≠ ⟨0, 0, 0⟩) : ∀ vs : List (V3 K), (∀ v ∈ vs, dot (sub3 v v0) m = 0) →
    ∃ l, normalFrom v0 vs = smul3 l m
  | [], _ => ⟨0, by simp [normalFrom, smul3]⟩
  | [_], _ => ⟨0, by simp [normalFrom, smul3]⟩
  | a :: b :: rest, h => by
    obtain ⟨l1, h1⟩ := cross_parallel hm (h a (by simp)) (h b (by simp))
    obtain ⟨l2, h2⟩ := normalFrom_parallel hm (b :: rest) (fun v hv => h v (List.mem_cons_of_mem _ hv))
    refine ⟨l1 + l2, ?_⟩
    simp only [normalFrom, h1, h2, add3, smul3]
    apply V3.ext <;> simp only <;> ring

/-- The plane coefficients of a planar polygon describe the plane. -/
theorem coefficients_side {a b c : V3 K} (h : NotCollinear3 a b c) {vs : List (V3 K)} (hne : vs ≠ [])
    (hvs : ∀ v ∈ vs, OnPlaneOf a b c v) : ∃ l, (planeCoefficients vs).1 = smul3 l (triNormal a b c) ∧
      ∀ x, side (planeCoefficients vs).1 (planeCoefficients vs).2.1 x = -l * orient3d a b c x := by
  have hm := triNormal_ne h
  cases vs with
  | nil => exact absurd rfl hne
  | cons v0 rest =>
    have hpl : ∀ v ∈ v0 :: rest, side (triNormal a b c) (dot a (triNormal a b c)) v = 0 := by
      intro v hv
      have := (onPlaneOf_iff h v).1 (hvs v hv)
      rw [orient3d_side] at this
      linear_combination -this
    have h0 := hpl v0 (by simp)
    obtain ⟨l, hl⟩ := normalFrom_parallel (v0 := v0) hm (v0 :: rest) (by
      intro v hv
      have h1 := hpl v hv
      unfold side at h0 h1
      unfold sub3 dot at *
      linear_combination h1 - h0)
    refine ⟨l, hl, fun x => ?_⟩
    rw [orient3d_side]
    simp only [planeCoefficients, polygonNormal, hl, List.headD_cons]
    generalize triNormal a b c = m at *
    unfold side smul3 dot at *
    linear_combination -l * h0

end Mcut.Geom
