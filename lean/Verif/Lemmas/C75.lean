import Verif.Lemmas.Angle3
import Verif.Spec.C75

/-! C75: the code's angles. -/
namespace Mcut.Winding

theorem zero3_of_tri {a b c q : Vec} (h : InTriangle a b c q) : Zero3 (sub a q) (sub b q) (sub c q) := by
  obtain ⟨α, β, γ, h1, h2, h3, h4, rfl⟩ := h
  refine ⟨α, β, γ, h1, h2, h3, by linarith, ?_, ?_, ?_⟩ <;> (have : γ = 1 - α - β := by linarith) <;> subst this <;> simp only [sub] <;> ring

theorem tri_of_zero3 {a b c q : Vec} (h : Zero3 (sub a q) (sub b q) (sub c q)) : InTriangle a b c q := by
  obtain ⟨α, β, γ, h1, h2, h3, h4, hx, hy, hz⟩ := h
  simp only [sub] at hx hy hz
  refine ⟨α / (α + β + γ), β / (α + β + γ), γ / (α + β + γ), by positivity, by positivity, by positivity, by field_simp, ?_⟩
  ext <;> simp only <;> field_simp <;> linarith

theorem quad_of_zero4 {a b c d q : Vec} (h : Zero4 (sub a q) (sub b q) (sub c q) (sub d q)) : InQuad a b c d q := by
  obtain ⟨ν, α, β, γ, h0, h1, h2, h3, h4, hx, hy, hz⟩ := h
  simp only [sub] at hx hy hz
  refine ⟨ν / (ν + α + β + γ), α / (ν + α + β + γ), β / (ν + α + β + γ), γ / (ν + α + β + γ), by positivity, by positivity, by positivity, by positivity, by field_simp, ?_⟩
  ext <;> simp only <;> field_simp <;> linarith

theorem vdiv_eq (a : Vec) (t : ℝ) : vdiv a t = smul (1 / t) a := by unfold vdiv smul; ext <;> simp only <;> ring

/-- The argument for the normalised vectors. -/
theorem arg_unit {a b c : Vec} (la : 0 < length a) (lb : 0 < length b) (lc : 0 < length c) :
    (Z (vdiv a (length a)) (vdiv b (length b)) (vdiv c (length c))).arg = (Z a b c).arg ∧
    (Z (vdiv a (length a)) (vdiv b (length b)) (vdiv c (length c))).re = 1 + dot (vdiv a (length a)) (vdiv b (length b)) +
      dot (vdiv b (length b)) (vdiv c (length c)) + dot (vdiv c (length c)) (vdiv a (length a)) := by
  simp only [vdiv_eq]
  constructor
  · rw [Z_smul (by positivity) (by positivity) (by positivity), Complex.arg_real_mul _ (by positivity)]
  · simp only [Z, length_smul (show 0 ≤ 1 / length a by positivity), length_smul (show 0 ≤ 1 / length b by positivity), length_smul (show 0 ≤ 1 / length c by positivity)]
    field_simp

theorem dot_comm (a b : Vec) : dot a b = dot b a := by unfold dot; ring

/-- What is added for one triangle of the code. -/
theorem atan2_eq {u v w : Vec} {y x : ℝ} (hy : y = (Z u v w).im) (hx : x = (Z u v w).re) : atan2 y x = (Z u v w).arg := by unfold atan2; rw [hy, hx]

theorem solidTri_eq {a b c q : Vec} (h : ¬InTriangle a b c q) : solidTri a b c q = (Z (sub a q) (sub b q) (sub c q)).arg / (2 * Real.pi) := by
  have hz : ¬Zero3 (sub a q) (sub b q) (sub c q) := fun e => h (tri_of_zero3 e)
  obtain ⟨la, lb, lc⟩ := Zero3.nonzero hz
  obtain ⟨e1, e2⟩ := arg_unit la lb lc
  have s := slit hz
  unfold solidTri
  simp only
  rw [if_neg (by push Not; exact ⟨la.ne', lb.ne', lc.ne'⟩)]
  generalize hu : vdiv (sub a q) (length (sub a q)) = u at *
  generalize hv : vdiv (sub b q) (length (sub b q)) = v at *
  generalize hw : vdiv (sub c q) (length (sub c q)) = w at *
  have hn : dot u (cross (sub v u) (sub w u)) = (Z u v w).im := by
    show _ = det u v w
    unfold det cross dot sub; ring
  split
  · rename_i h0
    rw [hn] at h0
    have : (Z u v w).arg = 0 := by
      rw [e1]
      apply arg_of_zero s
      subst hu hv hw
      rw [vdiv_eq, vdiv_eq, vdiv_eq, Z_smul (by positivity) (by positivity) (by positivity), Complex.im_ofReal_mul] at h0
      rcases mul_eq_zero.1 h0 with e | e
      · exact absurd e (by positivity)
      · exact e
    rw [← e1, this]; simp
  · rw [atan2_eq hn (show _ = (Z u v w).re by rw [e2, dot_comm u w]; ring), e1]

/-- What the code adds for one of the two triangles of a quad. -/
theorem half_eq {a b c : Vec} (h : ¬Zero3 a b c) (y x : ℝ)
    (hy : y = det (vdiv a (length a)) (vdiv b (length b)) (vdiv c (length c)))
    (hx : x = 1 + dot (vdiv a (length a)) (vdiv b (length b)) + dot (vdiv b (length b)) (vdiv c (length c)) + dot (vdiv c (length c)) (vdiv a (length a))) (o : ℝ) :
    (y = 0 → o = o + (Z a b c).arg) ∧ (atan2 y x = (Z a b c).arg) := by
  obtain ⟨la, lb, lc⟩ := Zero3.nonzero h
  obtain ⟨e1, e2⟩ := arg_unit la lb lc
  have s := slit h
  constructor
  · intro h0
    rw [hy] at h0
    have : (Z a b c).arg = 0 := by
      apply arg_of_zero s
      have e : (Z (vdiv a (length a)) (vdiv b (length b)) (vdiv c (length c))).im = 0 := h0
      rw [vdiv_eq, vdiv_eq, vdiv_eq, Z_smul (by positivity) (by positivity) (by positivity), Complex.im_ofReal_mul] at e
      rcases mul_eq_zero.1 e with e | e
      · exact absurd e (by positivity)
      · exact e
    rw [this]; simp
  · rw [atan2_eq (show y = (Z (vdiv a (length a)) (vdiv b (length b)) (vdiv c (length c))).im from hy) (by rw [hx, e2]), e1]

theorem solidQuad_eq {a b c d q : Vec} (h : ¬InQuad a b c d q) : solidQuad a b c d q =
    (Z (sub a q) (sub b q) (sub d q)).arg / (2 * Real.pi) + (Z (sub b q) (sub c q) (sub d q)).arg / (2 * Real.pi) := by
  have hz : ¬Zero4 (sub a q) (sub b q) (sub c q) (sub d q) := fun e => h (quad_of_zero4 e)
  have z123 : ¬Zero3 (sub b q) (sub c q) (sub d q) := fun e => hz (zero4_of_abc e)
  have z012 : ¬Zero3 (sub a q) (sub b q) (sub c q) := fun e => hz (zero4_of_nab e)
  have z023 : ¬Zero3 (sub a q) (sub c q) (sub d q) := fun e => hz (zero4_of_nbc e)
  have z031 : ¬Zero3 (sub a q) (sub d q) (sub b q) := fun e => hz (zero4_of_nca e)
  have z013 : ¬Zero3 (sub a q) (sub b q) (sub d q) := fun e => z031 e.swap
  have T := tetra_out hz
  rw [arg_swap z013] at T
  obtain ⟨l0, l1, l2⟩ := Zero3.nonzero z012
  obtain ⟨-, -, l3⟩ := Zero3.nonzero z123
  have H012 := half_eq z012
  have H023 := half_eq z023
  have H013 := half_eq z013
  have H123 := half_eq z123
  unfold solidQuad
  simp only
  rw [if_neg (by push Not; exact ⟨l0.ne', l1.ne', l2.ne', l3.ne'⟩)]
  generalize vdiv (sub a q) (length (sub a q)) = u0 at *
  generalize vdiv (sub b q) (length (sub b q)) = u1 at *
  generalize vdiv (sub c q) (length (sub c q)) = u2 at *
  generalize vdiv (sub d q) (length (sub d q)) = u3 at *
  split
  · have A := H012 (dot u0 (cross (sub u1 u0) (sub u2 u0))) (1 + dot u0 u1 + dot u1 u2 + dot u0 u2) (by unfold det cross dot sub; ring) (by rw [dot_comm u2 u0])
    have B := H023 (-dot u2 (cross (sub u3 u2) (sub u2 u0))) (1 + dot u0 u2 + dot u2 u3 + dot u3 u0) (by unfold det cross dot sub; ring) (by ring)
    have e1 : (if dot u0 (cross (sub u1 u0) (sub u2 u0)) ≠ 0 then atan2 (dot u0 (cross (sub u1 u0) (sub u2 u0))) (1 + dot u0 u1 + dot u1 u2 + dot u0 u2) else 0) =
        (Z (sub a q) (sub b q) (sub c q)).arg := by
      split
      · exact (A 0).2
      · rename_i h0; push Not at h0; have := (A 0).1 h0; linarith
    rw [e1]
    have e2 : ∀ o : ℝ, (if -dot u2 (cross (sub u3 u2) (sub u2 u0)) ≠ 0 then o + atan2 (-dot u2 (cross (sub u3 u2) (sub u2 u0))) (1 + dot u0 u2 + dot u2 u3 + dot u3 u0) else o) =
        o + (Z (sub a q) (sub c q) (sub d q)).arg := by
      intro o
      split
      · rw [(B 0).2]
      · rename_i h0; push Not at h0; exact (B o).1 h0
    rw [e2, ← add_div]
    congr 1
    linarith
  · have A := H013 (- -dot u1 (cross (sub u1 u0) (sub u3 u1))) (1 + dot u0 u1 + dot u1 u3 + dot u3 u0) (by unfold det cross dot sub; ring) (by ring)
    have B := H123 (-dot u3 (cross (sub u3 u2) (sub u3 u1))) (1 + dot u1 u2 + dot u2 u3 + dot u1 u3) (by unfold det cross dot sub; ring) (by rw [dot_comm u3 u1])
    have e1 : (if - -dot u1 (cross (sub u1 u0) (sub u3 u1)) ≠ 0 then atan2 (- -dot u1 (cross (sub u1 u0) (sub u3 u1))) (1 + dot u0 u1 + dot u1 u3 + dot u3 u0) else 0) =
        (Z (sub a q) (sub b q) (sub d q)).arg := by
      split
      · exact (A 0).2
      · rename_i h0; push Not at h0; have := (A 0).1 h0; linarith
    rw [e1]
    have e2 : ∀ o : ℝ, (if -dot u3 (cross (sub u3 u2) (sub u3 u1)) ≠ 0 then o + atan2 (-dot u3 (cross (sub u3 u2) (sub u3 u1))) (1 + dot u1 u2 + dot u2 u3 + dot u1 u3) else o) =
        o + (Z (sub b q) (sub c q) (sub d q)).arg := by
      intro o
      split
      · rw [(B 0).2]
      · rename_i h0; push Not at h0; exact (B o).1 h0
    rw [e2, ← add_div]

end Mcut.Winding
