import Verif.Lemmas.Angle

/-! Triangles that do not contain the origin; deformations. -/
namespace Mcut.Winding

/-- The origin is in the triangle. -/
def Zero3 (a b c : Vec) : Prop := ∃ α β γ : ℝ, 0 ≤ α ∧ 0 ≤ β ∧ 0 ≤ γ ∧ 0 < α + β + γ ∧
  α * a.x + β * b.x + γ * c.x = 0 ∧ α * a.y + β * b.y + γ * c.y = 0 ∧ α * a.z + β * b.z + γ * c.z = 0

/-- The origin is in the tetrahedron. -/
def Zero4 (n a b c : Vec) : Prop := ∃ ν α β γ : ℝ, 0 ≤ ν ∧ 0 ≤ α ∧ 0 ≤ β ∧ 0 ≤ γ ∧ 0 < ν + α + β + γ ∧
  ν * n.x + α * a.x + β * b.x + γ * c.x = 0 ∧ ν * n.y + α * a.y + β * b.y + γ * c.y = 0 ∧ ν * n.z + α * a.z + β * b.z + γ * c.z = 0

/-- Multiples of a vector. -/
def smul (t : ℝ) (a : Vec) : Vec := ⟨t * a.x, t * a.y, t * a.z⟩

theorem dot_smul_left (t : ℝ) (a b : Vec) : dot (smul t a) b = t * dot a b := by unfold dot smul; ring
theorem dot_smul_right (t : ℝ) (a b : Vec) : dot a (smul t b) = t * dot a b := by unfold dot smul; ring

theorem length_smul {t : ℝ} (ht : 0 ≤ t) (a : Vec) : length (smul t a) = t * length a := by
  unfold length squaredLength
  rw [dot_smul_left, dot_smul_right, ← mul_assoc, Real.sqrt_mul (mul_nonneg ht ht), Real.sqrt_mul_self ht]

theorem Z_smul {r s t : ℝ} (hr : 0 ≤ r) (hs : 0 ≤ s) (ht : 0 ≤ t) (a b c : Vec) : Z (smul r a) (smul s b) (smul t c) = ((r * s * t : ℝ) : ℂ) * Z a b c := by
  apply Complex.ext
  · simp [Z, length_smul, hr, hs, ht, dot_smul_left, dot_smul_right]; ring
  · simp [Z, det, cross, dot, smul]; ring

theorem Zero3.rot {a b c : Vec} (h : Zero3 a b c) : Zero3 b c a := by
  obtain ⟨α, β, γ, h1, h2, h3, h4, hx, hy, hz⟩ := h
  exact ⟨β, γ, α, h2, h3, h1, by linarith, by linarith, by linarith, by linarith⟩

theorem Zero3.swap {a b c : Vec} (h : Zero3 a b c) : Zero3 a c b := by
  obtain ⟨α, β, γ, h1, h2, h3, h4, hx, hy, hz⟩ := h
  exact ⟨α, γ, β, h1, h3, h2, by linarith, by linarith, by linarith, by linarith⟩

theorem sq_zero {x y z : ℝ} (h : x * x + y * y + z * z = 0) : x = 0 ∧ y = 0 ∧ z = 0 := by
  refine ⟨?_, ?_, ?_⟩ <;> nlinarith [sq_nonneg x, sq_nonneg y, sq_nonneg z, sq_nonneg (x+y), sq_nonneg (x - y)]

theorem length_pos {a : Vec} (h : ¬(a.x = 0 ∧ a.y = 0 ∧ a.z = 0)) : 0 < length a := by
  rcases (length_nonneg a).lt_or_eq with h' | h'
  · exact h'
  · exfalso
    have := length_sq a
    rw [← h'] at this
    unfold dot at this
    exact h (sq_zero (by linarith))

/-- The Gram determinant. -/
theorem gram (a b c : Vec) : det a b c ^ 2 = dot a a * dot b b * dot c c + 2 * dot a b * dot b c * dot c a - dot a a * dot b c ^ 2 - dot b b * dot c a ^ 2 - dot c c * dot a b ^ 2 := by
  unfold det cross dot; ring

theorem null_unit {a b c : Vec} (ha : dot a a = 1) (hb : dot b b = 1) (hc : dot c c = 1) (hd : det a b c = 0) (hx : dot b c ^ 2 ≠ 1)
    (hre : 1 + dot a b + dot b c + dot c a ≤ 0) (h1 : -1 ≤ dot a b) (h2 : -1 ≤ dot b c) (h3 : -1 ≤ dot c a) (h4 : dot b c ≤ 1) : Zero3 a b c := by
  have g := gram a b c
  rw [hd, ha, hb, hc] at g
  set t := dot a b with ht
  set x := dot b c with hxx
  set y := dot c a with hy
  have p1 : 0 < 1 - x ^ 2 := lt_of_le_of_ne (by nlinarith) (fun h => hx (by linarith))
  have p2 : 0 ≤ x * y - t := by nlinarith [mul_nonneg (by linarith : (0:ℝ) ≤ 1 + x) (by linarith : (0:ℝ) ≤ 1 + y)]
  have p3 : 0 ≤ x * t - y := by nlinarith [mul_nonneg (by linarith : (0:ℝ) ≤ 1 + x) (by linarith : (0:ℝ) ≤ 1 + t)]
  refine ⟨1 - x ^ 2, x * y - t, x * t - y, p1.le, p2, p3, by linarith, ?_⟩
  apply sq_zero
  have e : ∀ u v w : ℝ, (u * a.x + v * b.x + w * c.x) * (u * a.x + v * b.x + w * c.x) + (u * a.y + v * b.y + w * c.y) * (u * a.y + v * b.y + w * c.y) +
      (u * a.z + v * b.z + w * c.z) * (u * a.z + v * b.z + w * c.z) = u ^ 2 * dot a a + v ^ 2 * dot b b + w ^ 2 * dot c c + 2 * u * v * dot a b + 2 * v * w * dot b c + 2 * w * u * dot c a := by
    intro u v w; unfold dot; ring
  rw [e, ha, hb, hc, ← ht, ← hxx, ← hy]
  linear_combination (-(1 - x ^ 2)) * g

theorem anti {a b : Vec} (ha : dot a a = 1) (hb : dot b b = 1) (h : dot a b = -1) (c : Vec) : Zero3 a b c := by
  refine ⟨1, 1, 0, by norm_num, by norm_num, by norm_num, by norm_num, ?_⟩
  have : (a.x + b.x) * (a.x + b.x) + (a.y + b.y) * (a.y + b.y) + (a.z + b.z) * (a.z + b.z) = 0 := by
    have : (a.x + b.x) * (a.x + b.x) + (a.y + b.y) * (a.y + b.y) + (a.z + b.z) * (a.z + b.z) = dot a a + dot b b + 2 * dot a b := by unfold dot; ring
    rw [this, ha, hb, h]; norm_num
  obtain ⟨hx, hy, hz⟩ := sq_zero this
  exact ⟨by linarith, by linarith, by linarith⟩

theorem unit_length {a : Vec} (h : dot a a = 1) : length a = 1 := by unfold length squaredLength; rw [h, Real.sqrt_one]

theorem slit_unit {a b c : Vec} (ha : dot a a = 1) (hb : dot b b = 1) (hc : dot c c = 1) (h : ¬Zero3 a b c) : Z a b c ∈ Complex.slitPlane := by
  rw [Complex.mem_slitPlane_iff]
  by_contra hn
  push Not at hn
  obtain ⟨hre, him⟩ := hn
  have la := unit_length ha
  have lb := unit_length hb
  have lc := unit_length hc
  have bd : ∀ {u v : Vec}, length u = 1 → length v = 1 → -1 ≤ dot u v ∧ dot u v ≤ 1 := by
    intro u v hu hv
    have := cauchy u v
    rw [hu, hv, mul_one, abs_le] at this
    exact this
  have hd : det a b c = 0 := him
  have hre' : 1 + dot a b + dot b c + dot c a ≤ 0 := by
    have : (Z a b c).re = 1 + dot a b + dot b c + dot c a := by simp [Z, la, lb, lc]
    rw [← this]; exact hre
  by_cases hx : dot b c ^ 2 = 1
  · by_cases hy : dot c a ^ 2 = 1
    · by_cases ht : dot a b ^ 2 = 1
      · have f : ∀ {r : ℝ}, r ^ 2 = 1 → r = 1 ∨ r = -1 := by
          intro r hr
          have : (r - 1) * (r + 1) = 0 := by linear_combination hr
          rcases mul_eq_zero.1 this with h | h
          · exact Or.inl (by linarith)
          · exact Or.inr (by linarith)
        rcases f ht with e1 | e1
        · rcases f hx with e2 | e2
          · rcases f hy with e3 | e3
            · rw [e1, e2, e3] at hre'; norm_num at hre'
            · exact h ((anti hc ha e3 b).rot)
          · exact h ((anti hb hc e2 a).rot.rot)
        · exact h (anti ha hb e1 c)
      · exact h ((null_unit hc ha hb (by rw [← hd]; unfold det cross dot; ring) ht (by linarith) (bd lc la).1 (bd la lb).1 (bd lb lc).1 (bd la lb).2).rot)
    · exact h ((null_unit hb hc ha (by rw [← hd]; unfold det cross dot; ring) hy (by linarith) (bd lb lc).1 (bd lc la).1 (bd la lb).1 (bd lc la).2).rot.rot)
  · exact h (null_unit ha hb hc hd hx hre' (bd la lb).1 (bd lb lc).1 (bd lc la).1 (bd lb lc).2)

theorem unit_dot {a : Vec} (h : 0 < length a) : dot (smul (1 / length a) a) (smul (1 / length a) a) = 1 := by
  rw [dot_smul_left, dot_smul_right, ← length_sq]; field_simp

theorem smul_one_div {a : Vec} (h : 0 < length a) : smul (length a) (smul (1 / length a) a) = a := by
  unfold smul; ext <;> field_simp

theorem Zero3.of_smul {r s t : ℝ} (hr : 0 < r) (hs : 0 < s) (ht : 0 < t) {a b c : Vec} (h : Zero3 (smul r a) (smul s b) (smul t c)) : Zero3 a b c := by
  obtain ⟨α, β, γ, h1, h2, h3, h4, hx, hy, hz⟩ := h
  have p1 := mul_nonneg h1 hr.le
  have p2 := mul_nonneg h2 hs.le
  have p3 := mul_nonneg h3 ht.le
  refine ⟨α * r, β * s, γ * t, p1, p2, p3, ?_, ?_, ?_, ?_⟩
  · rcases h1.lt_or_eq with e | e
    · nlinarith [mul_pos e hr]
    · rcases h2.lt_or_eq with e' | e'
      · nlinarith [mul_pos e' hs]
      · have : 0 < γ := by linarith
        nlinarith [mul_pos this ht]
  · unfold smul at hx; simp only at hx; linarith
  · unfold smul at hy; simp only at hy; linarith
  · unfold smul at hz; simp only at hz; linarith

theorem Zero3.nonzero {a b c : Vec} (h : ¬Zero3 a b c) : 0 < length a ∧ 0 < length b ∧ 0 < length c := by
  refine ⟨length_pos ?_, length_pos ?_, length_pos ?_⟩ <;> rintro ⟨x, y, z⟩ <;> apply h
  · exact ⟨1, 0, 0, by norm_num, by norm_num, by norm_num, by norm_num, by rw [x]; ring, by rw [y]; ring, by rw [z]; ring⟩
  · exact ⟨0, 1, 0, by norm_num, by norm_num, by norm_num, by norm_num, by rw [x]; ring, by rw [y]; ring, by rw [z]; ring⟩
  · exact ⟨0, 0, 1, by norm_num, by norm_num, by norm_num, by norm_num, by rw [x]; ring, by rw [y]; ring, by rw [z]; ring⟩

/-- The number attached to a triangle without the origin is not on the cut of the argument. -/
theorem slit {a b c : Vec} (h : ¬Zero3 a b c) : Z a b c ∈ Complex.slitPlane := by
  obtain ⟨la, lb, lc⟩ := Zero3.nonzero h
  have u := slit_unit (unit_dot la) (unit_dot lb) (unit_dot lc) (fun e => h (Zero3.of_smul (by positivity) (by positivity) (by positivity) e))
  have e := Z_smul la.le lb.le lc.le (smul (1 / length a) a) (smul (1 / length b) b) (smul (1 / length c) c)
  rw [smul_one_div la, smul_one_div lb, smul_one_div lc] at e
  rw [e]
  have p : 0 < length a * length b * length c := by positivity
  rw [Complex.mem_slitPlane_iff] at u ⊢
  rw [Complex.re_ofReal_mul, Complex.im_ofReal_mul]
  rcases u with u | u
  · exact Or.inl (mul_pos p u)
  · exact Or.inr (mul_ne_zero p.ne' u)

theorem arg_swap {n a b : Vec} (h : ¬Zero3 n a b) : (Z n b a).arg = -(Z n a b).arg := by
  rw [Z_swap, Complex.arg_conj, if_neg (Complex.mem_slitPlane_iff_arg.1 (slit h)).1]

theorem arg_of_pos {z : ℂ} (h : 0 < z.im) : 0 < z.arg ∧ z.arg < Real.pi := by
  constructor
  · rcases (Complex.arg_nonneg_iff.2 h.le).lt_or_eq with e | e
    · exact e
    · have := (Complex.arg_eq_zero_iff.1 e.symm).2; linarith
  · exact Complex.arg_lt_pi_iff.2 (Or.inr h.ne')

theorem arg_of_neg {z : ℂ} (h : z.im < 0) : -Real.pi < z.arg ∧ z.arg < 0 := ⟨Complex.neg_pi_lt_arg z, Complex.arg_neg_iff.2 h⟩

theorem arg_of_zero {z : ℂ} (hs : z ∈ Complex.slitPlane) (h : z.im = 0) : z.arg = 0 := by
  rw [Complex.mem_slitPlane_iff] at hs
  exact Complex.arg_eq_zero_iff.2 ⟨by rcases hs with e | e <;> [exact e.le; exact absurd h e], h⟩

/-- A continuous function all of whose values are multiples of a full turn is constant. -/
theorem constant_turns {f : ℝ → ℝ} (hf : ContinuousOn f (Set.Icc 0 1)) (hk : ∀ s ∈ Set.Icc (0:ℝ) 1, ∃ k : ℤ, f s = k * (2 * Real.pi)) : f 0 = f 1 := by
  have pi := Real.pi_pos
  obtain ⟨k0, e0⟩ := hk 0 ⟨le_refl _, by norm_num⟩
  obtain ⟨k1, e1⟩ := hk 1 ⟨by norm_num, le_refl _⟩
  have half : ∀ {c : ℝ} (k : ℤ), c = k * (2 * Real.pi) → (∃ s ∈ Set.Icc (0:ℝ) 1, f s = c + Real.pi) → False := by
    rintro c k rfl ⟨s, hs, e⟩
    obtain ⟨j, ej⟩ := hk s hs
    have : ((2 * (j - k) : ℤ) : ℝ) * Real.pi = ((1 : ℤ) : ℝ) * Real.pi := by push_cast; linarith
    have := Int.cast_injective (mul_right_cancel₀ pi.ne' this)
    omega
  rcases lt_trichotomy k0 k1 with h | h | h
  · exfalso
    have h' : (k0 : ℝ) + 1 ≤ k1 := by exact_mod_cast h
    apply half k0 rfl
    have := intermediate_value_Icc (by norm_num : (0:ℝ) ≤ 1) hf
    have hm : (k0 : ℝ) * (2 * Real.pi) + Real.pi ∈ Set.Icc (f 0) (f 1) := by rw [e0, e1]; constructor <;> nlinarith
    obtain ⟨s, hs, e⟩ := this hm
    exact ⟨s, hs, e⟩
  · rw [e0, e1, h]
  · exfalso
    have h' : (k1 : ℝ) + 1 ≤ k0 := by exact_mod_cast h
    apply half k1 rfl
    have := intermediate_value_Icc' (by norm_num : (0:ℝ) ≤ 1) hf
    have hm : (k1 : ℝ) * (2 * Real.pi) + Real.pi ∈ Set.Icc (f 1) (f 0) := by rw [e0, e1]; constructor <;> nlinarith
    obtain ⟨s, hs, e⟩ := this hm
    exact ⟨s, hs, e⟩

/-- A moving vector. -/
def Moves (S : Set ℝ) (p : ℝ → Vec) : Prop := ContinuousOn (fun s => (p s).x) S ∧ ContinuousOn (fun s => (p s).y) S ∧ ContinuousOn (fun s => (p s).z) S

theorem Moves.dot {S : Set ℝ} {p q : ℝ → Vec} (hp : Moves S p) (hq : Moves S q) : ContinuousOn (fun s => dot (p s) (q s)) S :=
  ((hp.1.mul hq.1).add (hp.2.1.mul hq.2.1)).add (hp.2.2.mul hq.2.2)

theorem Moves.length {S : Set ℝ} {p : ℝ → Vec} (hp : Moves S p) : ContinuousOn (fun s => length (p s)) S := Real.continuous_sqrt.comp_continuousOn (hp.dot hp)

theorem Moves.cross {S : Set ℝ} {p q : ℝ → Vec} (hp : Moves S p) (hq : Moves S q) : Moves S (fun s => cross (p s) (q s)) :=
  ⟨(hp.2.1.mul hq.2.2).sub (hp.2.2.mul hq.2.1), (hp.2.2.mul hq.1).sub (hp.1.mul hq.2.2), (hp.1.mul hq.2.1).sub (hp.2.1.mul hq.1)⟩

theorem Moves.Z {S : Set ℝ} {p q r : ℝ → Vec} (hp : Moves S p) (hq : Moves S q) (hr : Moves S r) : ContinuousOn (fun s => Z (p s) (q s) (r s)) S := by
  have e : (fun s => Winding.Z (p s) (q s) (r s)) = (fun s => ((Winding.Z (p s) (q s) (r s)).re : ℂ) + ((Winding.Z (p s) (q s) (r s)).im : ℂ) * Complex.I) := by
    funext s; exact (Complex.re_add_im _).symm
  rw [e]
  refine ContinuousOn.add (Complex.continuous_ofReal.comp_continuousOn ?_) (ContinuousOn.mul (Complex.continuous_ofReal.comp_continuousOn ?_) continuousOn_const)
  · exact (((((hp.length).mul hq.length).mul hr.length).add ((hp.dot hq).mul hr.length)).add ((hq.dot hr).mul hp.length)).add ((hr.dot hp).mul hq.length)
  · exact hp.dot (hq.cross hr)

theorem Moves.arg {S : Set ℝ} {p q r : ℝ → Vec} (hp : Moves S p) (hq : Moves S q) (hr : Moves S r) (h : ∀ s ∈ S, ¬Zero3 (p s) (q s) (r s)) :
    ContinuousOn (fun s => (Winding.Z (p s) (q s) (r s)).arg) S := by
  intro s hs
  exact ContinuousAt.comp_continuousWithinAt (f := fun s => Winding.Z (p s) (q s) (r s)) (g := Complex.arg) (Complex.continuousAt_arg (slit (h s hs))) (hp.Z hq hr s hs)

end Mcut.Winding
