import Verif.Model.Winding
import Mathlib.Analysis.SpecialFunctions.Trigonometric.Angle
import Mathlib.Topology.Connected.TotallyDisconnected
import Mathlib.Tactic.Ring
import Mathlib.Tactic.Linarith
import Mathlib.Tactic.LinearCombination
import Mathlib.Tactic.FieldSimp
import Mathlib.Tactic.Positivity

/-! Solid angles: the argument of a complex number attached to three vectors. -/
namespace Mcut.Winding

/-- The determinant of three vectors. -/
def det (a b c : Vec) : ℝ := dot a (cross b c)

/-- The complex number whose argument is half the solid angle of the triangle `a b c` seen from the origin. -/
noncomputable def Z (a b c : Vec) : ℂ :=
  ⟨length a * length b * length c + dot a b * length c + dot b c * length a + dot c a * length b, det a b c⟩

/-- The 2×2 matrix `|a| + a·σ`. -/
noncomputable def m11 (a : Vec) : ℂ := ⟨length a + a.z, 0⟩
noncomputable def m12 (a : Vec) : ℂ := ⟨a.x, -a.y⟩
noncomputable def m21 (a : Vec) : ℂ := ⟨a.x, a.y⟩
noncomputable def m22 (a : Vec) : ℂ := ⟨length a - a.z, 0⟩

theorem length_sq (a : Vec) : length a * length a = dot a a := Real.mul_self_sqrt (by unfold squaredLength dot; nlinarith [sq_nonneg a.x, sq_nonneg a.y, sq_nonneg a.z])

theorem length_nonneg (a : Vec) : 0 ≤ length a := Real.sqrt_nonneg _

theorem singular (a : Vec) : m11 a * m22 a = m12 a * m21 a := by
  have h := length_sq a
  unfold dot at h
  apply Complex.ext <;> simp [m11, m12, m21, m22] <;> linarith

theorem split {p q r s : ℂ} (h : p * s = q * r) : ∃ u v u' v' : ℂ, p = u * v ∧ q = u * v' ∧ r = u' * v ∧ s = u' * v' := by
  by_cases hp : p = 0
  · by_cases hq : q = 0
    · exact ⟨0, r, 1, s, by simp [hp], by simp [hq], by simp, by simp⟩
    · have : r = 0 := by rw [hp] at h; simp at h; rcases h with h | h <;> [exact absurd h hq; exact h]
      exact ⟨q, 0, s, 1, by simp [hp], by simp, by simp [this], by simp⟩
  · exact ⟨1, p, r / p, q, by simp, by simp, by field_simp, by field_simp; linear_combination h⟩

theorem trace2 (a b : Vec) : (2 * (length a * length b + dot a b) : ℝ) = m11 a * m11 b + m12 a * m21 b + m21 a * m12 b + m22 a * m22 b := by
  apply Complex.ext <;> simp [m11, m12, m21, m22, dot] <;> ring

theorem trace3 (a b c : Vec) : 2 * Z a b c =
    m11 a * (m11 b * m11 c + m12 b * m21 c) + m12 a * (m21 b * m11 c + m22 b * m21 c) +
    m21 a * (m11 b * m12 c + m12 b * m22 c) + m22 a * (m21 b * m12 c + m22 b * m22 c) := by
  apply Complex.ext <;> simp [m11, m12, m21, m22, Z, dot, det, cross] <;> ring

/-- The product formula. -/
theorem Z_mul (n a b c : Vec) : Z n a b * Z n b c * Z n c a =
    ((2 * ((length n * length a + dot n a) * (length n * length b + dot n b) * (length n * length c + dot n c)) : ℝ) : ℂ) * Z a b c := by
  obtain ⟨n1, n2, n3, n4, en1, en2, en3, en4⟩ := split (singular n)
  obtain ⟨a1, a2, a3, a4, ea1, ea2, ea3, ea4⟩ := split (singular a)
  obtain ⟨b1, b2, b3, b4, eb1, eb2, eb3, eb4⟩ := split (singular b)
  obtain ⟨c1, c2, c3, c4, ec1, ec2, ec3, ec4⟩ := split (singular c)
  have h1 : 2 * Z n a b = (n2 * a1 + n4 * a3) * (a2 * b1 + a4 * b3) * (b2 * n1 + b4 * n3) := by
    rw [trace3, en1, en2, en3, en4, ea1, ea2, ea3, ea4, eb1, eb2, eb3, eb4]; ring
  have h2 : 2 * Z n b c = (n2 * b1 + n4 * b3) * (b2 * c1 + b4 * c3) * (c2 * n1 + c4 * n3) := by
    rw [trace3, en1, en2, en3, en4, ec1, ec2, ec3, ec4, eb1, eb2, eb3, eb4]; ring
  have h3 : 2 * Z n c a = (n2 * c1 + n4 * c3) * (c2 * a1 + c4 * a3) * (a2 * n1 + a4 * n3) := by
    rw [trace3, en1, en2, en3, en4, ec1, ec2, ec3, ec4, ea1, ea2, ea3, ea4]; ring
  have h4 : 2 * Z a b c = (a2 * b1 + a4 * b3) * (b2 * c1 + b4 * c3) * (c2 * a1 + c4 * a3) := by
    rw [trace3, ea1, ea2, ea3, ea4, eb1, eb2, eb3, eb4, ec1, ec2, ec3, ec4]; ring
  have g1 : ((2 * (length n * length a + dot n a) : ℝ) : ℂ) = (n2 * a1 + n4 * a3) * (a2 * n1 + a4 * n3) := by
    rw [trace2, en1, en2, en3, en4, ea1, ea2, ea3, ea4]; ring
  have g2 : ((2 * (length n * length b + dot n b) : ℝ) : ℂ) = (n2 * b1 + n4 * b3) * (b2 * n1 + b4 * n3) := by
    rw [trace2, en1, en2, en3, en4, eb1, eb2, eb3, eb4]; ring
  have g3 : ((2 * (length n * length c + dot n c) : ℝ) : ℂ) = (n2 * c1 + n4 * c3) * (c2 * n1 + c4 * n3) := by
    rw [trace2, en1, en2, en3, en4, ec1, ec2, ec3, ec4]; ring
  have k : ((2 * ((length n * length a + dot n a) * (length n * length b + dot n b) * (length n * length c + dot n c)) : ℝ) : ℂ) * 8 * (2 * Z a b c) =
      2 * (((2 * (length n * length a + dot n a) : ℝ) : ℂ) * ((2 * (length n * length b + dot n b) : ℝ) : ℂ) * ((2 * (length n * length c + dot n c) : ℝ) : ℂ)) * (2 * Z a b c) := by
    push_cast; ring
  have e : 16 * (Z n a b * Z n b c * Z n c a) = 2 * ((2 * Z n a b) * (2 * Z n b c) * (2 * Z n c a)) := by ring
  have : 16 * (Z n a b * Z n b c * Z n c a) =
    16 * (((2 * ((length n * length a + dot n a) * (length n * length b + dot n b) * (length n * length c + dot n c)) : ℝ) : ℂ) * Z a b c) := by
    rw [e, h1, h2, h3]
    have : 16 * (((2 * ((length n * length a + dot n a) * (length n * length b + dot n b) * (length n * length c + dot n c)) : ℝ) : ℂ) * Z a b c) =
      ((2 * ((length n * length a + dot n a) * (length n * length b + dot n b) * (length n * length c + dot n c)) : ℝ) : ℂ) * 8 * (2 * Z a b c) := by ring
    rw [this, k, g1, g2, g3, h4]
    ring
  exact mul_left_cancel₀ (by norm_num) this

theorem cauchy (a b : Vec) : |dot a b| ≤ length a * length b := by
  apply abs_le_of_sq_le_sq _ (mul_nonneg (length_nonneg a) (length_nonneg b))
  have : (length a * length b) ^ 2 = (dot a a) * dot b b := by rw [← length_sq, ← length_sq]; ring
  rw [this]
  unfold dot
  nlinarith [sq_nonneg (a.x * b.y - a.y * b.x), sq_nonneg (a.y * b.z - a.z * b.y), sq_nonneg (a.z * b.x - a.x * b.z)]

theorem plus_nonneg (a b : Vec) : 0 ≤ length a * length b + dot a b := by
  have := neg_le_of_abs_le (cauchy a b)
  linarith

/-- Opposite orientation. -/
theorem Z_swap (n a b : Vec) : Z n b a = (starRingEnd ℂ) (Z n a b) := by
  apply Complex.ext
  · simp [Z, dot]; ring
  · simp [Z, det, dot, cross]; ring

theorem Z_rot (a b c : Vec) : Z b c a = Z a b c := by
  apply Complex.ext
  · simp [Z, dot]; ring
  · simp [Z, det, dot, cross]; ring

/-- Up to a multiple of a full turn, the angle of a triangle is the sum of those of the three triangles with a point `n`. -/
theorem arg_telescope {n a b c : Vec} (h1 : Z n a b ≠ 0) (h2 : Z n b c ≠ 0) (h3 : Z n c a ≠ 0) :
    ∃ k : ℤ, (Z a b c).arg = (Z n a b).arg + (Z n b c).arg + (Z n c a).arg + k * (2 * Real.pi) := by
  have e := Z_mul n a b c
  set r : ℝ := 2 * ((length n * length a + dot n a) * (length n * length b + dot n b) * (length n * length c + dot n c)) with hr
  have hne : Z n a b * Z n b c * Z n c a ≠ 0 := mul_ne_zero (mul_ne_zero h1 h2) h3
  have r0 : r ≠ 0 := by
    intro h; rw [h] at e; simp at e; rcases e with (e | e) | e <;> contradiction
  have rp : 0 < r := lt_of_le_of_ne (mul_nonneg (by norm_num) (mul_nonneg (mul_nonneg (plus_nonneg _ _) (plus_nonneg _ _)) (plus_nonneg _ _))) (Ne.symm r0)
  have a1 : ((Z a b c).arg : Real.Angle) = (Z n a b).arg + (Z n b c).arg + (Z n c a).arg := by
    rw [← Complex.arg_real_mul (Z a b c) rp, ← e, Complex.arg_mul_coe_angle (mul_ne_zero h1 h2) h3, Complex.arg_mul_coe_angle h1 h2]
  rw [← Real.Angle.coe_add, ← Real.Angle.coe_add, Real.Angle.angle_eq_iff_two_pi_dvd_sub] at a1
  obtain ⟨k, hk⟩ := a1
  exact ⟨k, by linarith⟩

end Mcut.Winding
