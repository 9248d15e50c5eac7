import Verif.Lemmas.Angle2

/-! The four faces of a tetrahedron. -/
namespace Mcut.Winding

/-- Between `a` and `n`. -/
def mix (s : ℝ) (a n : Vec) : Vec := ⟨(1 - s) * a.x + s * n.x, (1 - s) * a.y + s * n.y, (1 - s) * a.z + s * n.z⟩

theorem mix_zero (a n : Vec) : mix 0 a n = a := by unfold mix; ext <;> simp
theorem mix_one (a n : Vec) : mix 1 a n = n := by unfold mix; ext <;> simp

theorem mix_moves (a n : Vec) : Moves (Set.Icc 0 1) (fun s => mix s a n) := by
  refine ⟨?_, ?_, ?_⟩ <;> exact ((continuousOn_const.sub continuousOn_id).mul continuousOn_const).add (continuousOn_id.mul continuousOn_const)

theorem const_moves {S : Set ℝ} (n : Vec) : Moves S (fun _ => n) := ⟨continuousOn_const, continuousOn_const, continuousOn_const⟩

theorem zero4_of_abc {n a b c : Vec} (h : Zero3 a b c) : Zero4 n a b c := by
  obtain ⟨α, β, γ, h1, h2, h3, h4, hx, hy, hz⟩ := h
  exact ⟨0, α, β, γ, le_refl _, h1, h2, h3, by linarith, by linarith, by linarith, by linarith⟩
theorem zero4_of_nab {n a b c : Vec} (h : Zero3 n a b) : Zero4 n a b c := by
  obtain ⟨α, β, γ, h1, h2, h3, h4, hx, hy, hz⟩ := h
  exact ⟨α, β, γ, 0, h1, h2, h3, le_refl _, by linarith, by linarith, by linarith, by linarith⟩
theorem zero4_of_nbc {n a b c : Vec} (h : Zero3 n b c) : Zero4 n a b c := by
  obtain ⟨α, β, γ, h1, h2, h3, h4, hx, hy, hz⟩ := h
  exact ⟨α, 0, β, γ, h1, le_refl _, h2, h3, by linarith, by linarith, by linarith, by linarith⟩
theorem zero4_of_nca {n a b c : Vec} (h : Zero3 n c a) : Zero4 n a b c := by
  obtain ⟨α, β, γ, h1, h2, h3, h4, hx, hy, hz⟩ := h
  exact ⟨α, γ, 0, β, h1, h3, le_refl _, h2, by linarith, by linarith, by linarith, by linarith⟩

theorem zero4_mix {n a b c : Vec} {s : ℝ} (hs : s ∈ Set.Icc (0:ℝ) 1) (h : Zero4 n (mix s a n) (mix s b n) (mix s c n)) : Zero4 n a b c := by
  obtain ⟨ν, α, β, γ, h0, h1, h2, h3, h4, hx, hy, hz⟩ := h
  have t0 : 0 ≤ 1 - s := by linarith [hs.2]
  unfold mix at hx hy hz
  simp only at hx hy hz
  refine ⟨ν + s * (α + β + γ), (1 - s) * α, (1 - s) * β, (1 - s) * γ, add_nonneg h0 (mul_nonneg hs.1 (by linarith)), mul_nonneg t0 h1, mul_nonneg t0 h2, mul_nonneg t0 h3, by linarith, ?_, ?_, ?_⟩ <;> linarith

theorem arg_same {n : Vec} : (Z n n n).arg = 0 := by
  apply Complex.arg_eq_zero_iff.2
  have h := length_nonneg n
  have h2 : 0 ≤ dot n n := by rw [← length_sq]; exact mul_nonneg h h
  constructor
  · have := mul_nonneg h2 h
    have := mul_nonneg (mul_nonneg h h) h
    show 0 ≤ length n * length n * length n + dot n n * length n + dot n n * length n + dot n n * length n
    linarith
  · show det n n n = 0
    unfold det cross dot; ring

/-- The origin is outside the tetrahedron. -/
theorem tetra_out {n a b c : Vec} (h : ¬Zero4 n a b c) : (Z a b c).arg = (Z n a b).arg + (Z n b c).arg + (Z n c a).arg := by
  have hn : ∀ s ∈ Set.Icc (0:ℝ) 1, ¬Zero4 n (mix s a n) (mix s b n) (mix s c n) := fun s hs e => h (zero4_mix hs e)
  have M := constant_turns (f := fun s => (Z (mix s a n) (mix s b n) (mix s c n)).arg -
    ((Z n (mix s a n) (mix s b n)).arg + (Z n (mix s b n) (mix s c n)).arg + (Z n (mix s c n) (mix s a n)).arg)) ?_ ?_
  · simp only [mix_zero, mix_one, arg_same] at M
    linarith
  · refine ContinuousOn.sub ((mix_moves a n).arg (mix_moves b n) (mix_moves c n) (fun s hs e => hn s hs (zero4_of_abc e))) (ContinuousOn.add (ContinuousOn.add ?_ ?_) ?_)
    · exact (const_moves n).arg (mix_moves a n) (mix_moves b n) (fun s hs e => hn s hs (zero4_of_nab e))
    · exact (const_moves n).arg (mix_moves b n) (mix_moves c n) (fun s hs e => hn s hs (zero4_of_nbc e))
    · exact (const_moves n).arg (mix_moves c n) (mix_moves a n) (fun s hs e => hn s hs (zero4_of_nca e))
  · intro s hs
    have z : ∀ {x y z : Vec}, ¬Zero3 x y z → Z x y z ≠ 0 := fun h => Complex.slitPlane_ne_zero (slit h)
    obtain ⟨k, hk⟩ := arg_telescope (z (fun e => hn s hs (zero4_of_nab e))) (z (fun e => hn s hs (zero4_of_nbc e))) (z (fun e => hn s hs (zero4_of_nca e)))
    exact ⟨k, by rw [hk]; ring⟩

/-- The four determinants have compatible signs if the origin is in the tetrahedron. -/
theorem tetra_signs {n a b c : Vec} (h : Zero4 n a b c) (h0 : ¬Zero3 a b c) (h1 : ¬Zero3 n a b) (h2 : ¬Zero3 n b c) (h3 : ¬Zero3 n c a) :
    ∃ α β γ : ℝ, 0 < α ∧ 0 < β ∧ 0 < γ ∧ det n b c = -(α * det a b c) ∧ det n c a = -(β * det a b c) ∧ det n a b = -(γ * det a b c) := by
  obtain ⟨ν, α, β, γ, g0, g1, g2, g3, g4, hx, hy, hz⟩ := h
  have p0 : 0 < ν := by
    rcases g0.lt_or_eq with e | e
    · exact e
    · subst e; exact absurd ⟨α, β, γ, g1, g2, g3, by linarith, by linarith, by linarith, by linarith⟩ h0
  have p1 : 0 < α := by
    rcases g1.lt_or_eq with e | e
    · exact e
    · subst e; exact absurd ⟨ν, β, γ, g0, g2, g3, by linarith, by linarith, by linarith, by linarith⟩ h2
  have p2 : 0 < β := by
    rcases g2.lt_or_eq with e | e
    · exact e
    · subst e; exact absurd ⟨ν, γ, α, g0, g3, g1, by linarith, by linarith, by linarith, by linarith⟩ h3
  have p3 : 0 < γ := by
    rcases g3.lt_or_eq with e | e
    · exact e
    · subst e; exact absurd ⟨ν, α, β, g0, g1, g2, by linarith, by linarith, by linarith, by linarith⟩ h1
  refine ⟨α / ν, β / ν, γ / ν, by positivity, by positivity, by positivity, ?_, ?_, ?_⟩
  · field_simp
    unfold det cross dot
    simp only
    linear_combination (b.y * c.z - b.z * c.y) * hx + (b.z * c.x - b.x * c.z) * hy + (b.x * c.y - b.y * c.x) * hz
  · field_simp
    unfold det cross dot
    simp only
    linear_combination (c.y * a.z - c.z * a.y) * hx + (c.z * a.x - c.x * a.z) * hy + (c.x * a.y - c.y * a.x) * hz
  · field_simp
    unfold det cross dot
    simp only
    linear_combination (a.y * b.z - a.z * b.y) * hx + (a.z * b.x - a.x * b.z) * hy + (a.x * b.y - a.y * b.x) * hz

theorem tetra_pos {n a b c : Vec} (h : Zero4 n a b c) (h0 : ¬Zero3 a b c) (h1 : ¬Zero3 n a b) (h2 : ¬Zero3 n b c) (h3 : ¬Zero3 n c a) (hd : 0 < det a b c) :
    (Z a b c).arg = (Z n a b).arg + (Z n b c).arg + (Z n c a).arg + 2 * Real.pi := by
  obtain ⟨α, β, γ, pa, pb, pc, e1, e2, e3⟩ := tetra_signs h h0 h1 h2 h3
  have z : ∀ {x y z : Vec}, ¬Zero3 x y z → Z x y z ≠ 0 := fun h => Complex.slitPlane_ne_zero (slit h)
  obtain ⟨k, hk⟩ := arg_telescope (z h1) (z h2) (z h3)
  have q0 := arg_of_pos (z := Z a b c) hd
  have q1 := arg_of_neg (z := Z n a b) (show det n a b < 0 by rw [e3]; nlinarith [mul_pos pc hd])
  have q2 := arg_of_neg (z := Z n b c) (show det n b c < 0 by rw [e1]; nlinarith [mul_pos pa hd])
  have q3 := arg_of_neg (z := Z n c a) (show det n c a < 0 by rw [e2]; nlinarith [mul_pos pb hd])
  have pi := Real.pi_pos
  have k1 : (0:ℝ) < k := by
    by_contra hc
    push Not at hc
    have := mul_nonneg (by linarith : (0:ℝ) ≤ -k) pi.le
    nlinarith
  have k2 : (k:ℝ) < 2 := by
    by_contra hc
    push Not at hc
    have := mul_nonneg (by linarith : (0:ℝ) ≤ k - 2) pi.le
    nlinarith
  have : k = 1 := by
    have a1 : 0 < k := by exact_mod_cast k1
    have a2 : k < 2 := by exact_mod_cast k2
    omega
  rw [hk, this]; push_cast; ring

theorem tetra_neg {n a b c : Vec} (h : Zero4 n a b c) (h0 : ¬Zero3 a b c) (h1 : ¬Zero3 n a b) (h2 : ¬Zero3 n b c) (h3 : ¬Zero3 n c a) (hd : det a b c < 0) :
    (Z a b c).arg = (Z n a b).arg + (Z n b c).arg + (Z n c a).arg - 2 * Real.pi := by
  have sw : ∀ {x y z : Vec}, ¬Zero3 x y z → ¬Zero3 x z y := fun h e => h e.swap
  have t : Zero4 n a c b := by
    obtain ⟨ν, α, β, γ, g0, g1, g2, g3, g4, hx, hy, hz⟩ := h
    exact ⟨ν, α, γ, β, g0, g1, g3, g2, by linarith, by linarith, by linarith, by linarith⟩
  have := tetra_pos t (sw h0) (sw h3) (sw h2) (sw h1) (by unfold det cross dot at hd ⊢; simp only at hd ⊢; linarith)
  rw [arg_swap h0, arg_swap h1, arg_swap h2, arg_swap h3] at this
  linarith

theorem tetra_flat {n a b c : Vec} (h : Zero4 n a b c) (h0 : ¬Zero3 a b c) (h1 : ¬Zero3 n a b) (h2 : ¬Zero3 n b c) (h3 : ¬Zero3 n c a) (hd : det a b c = 0) :
    (Z a b c).arg = (Z n a b).arg + (Z n b c).arg + (Z n c a).arg := by
  obtain ⟨α, β, γ, pa, pb, pc, e1, e2, e3⟩ := tetra_signs h h0 h1 h2 h3
  rw [hd, mul_zero, neg_zero] at e1 e2 e3
  rw [arg_of_zero (slit h0) hd, arg_of_zero (slit h1) e3, arg_of_zero (slit h2) e1, arg_of_zero (slit h3) e2]; ring

end Mcut.Winding
