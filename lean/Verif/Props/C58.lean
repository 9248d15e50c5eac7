import Verif.Spec.C58
import Verif.Lemmas.C58
import Mathlib.Analysis.Real.Sqrt
import Mathlib.Tactic.NormNum

/-!
# C58: the projection of a planar polygon to two dimensions
-/
namespace Mcut.Geom

variable {K : Type*} [Field K] [LinearOrder K] [IsStrictOrderedRing K]

theorem jac_zero_iff {n : V3 K} {m : Nat} (hm : m ≤ 2) (hn : comp n m ≠ 0) : jac n m = 0 ↔ Singular n m := by
  have hcase : m = 0 ∨ m = 1 ∨ m = 2 := by omega
  rcases hcase with rfl | rfl | rfl
  · simp only [comp, if_true] at hn
    simp only [jac, Singular, if_true, div_eq_zero_iff, mul_eq_zero, hn, or_self, or_false, true_and, OfNat.zero_ne_ofNat, false_and]
    rw [sub_eq_zero]
  · simp only [comp, one_ne_zero, if_true, if_false] at hn
    simp only [jac, Singular, if_true, one_ne_zero, if_false, div_eq_zero_iff, mul_eq_zero, hn, or_self, or_false, OfNat.one_ne_ofNat, false_and,
      iff_false, neg_eq_zero]
    have := mul_self_pos.2 hn; have := mul_self_nonneg n.x; have := mul_self_nonneg n.z
    intro h; linarith
  · simp only [comp, OfNat.ofNat_ne_zero, OfNat.ofNat_ne_one, if_true, if_false] at hn
    simp only [jac, Singular, if_true, OfNat.ofNat_ne_zero, OfNat.ofNat_ne_one, if_false, div_eq_zero_iff, mul_eq_zero, hn, or_self, or_false,
      false_and, false_or, true_and]
    rw [sub_eq_zero]

/-- The projection is affine: straight lines and the parameters on them are kept. -/
theorem C58_lines (n : V3 K) (l : K) (m : Nat) (a b : V3 K) (t : K) :
    project n l m (lerp3 a b t) = lerp (project n l m a) (project n l m b) t := by
  unfold project
  simp only
  generalize (⟨n.x / l, n.y / l, n.z / l⟩ : V3 K) = av
  generalize (if comp n m > 0 then 1 else if comp n m < 0 then -1 else 0 : K) = s
  generalize (⟨if m = 0 then s else 0, if m = 1 then s else 0, if m = 2 then s else 0⟩ : V3 K) = bv
  generalize add3 av bv = w
  generalize dot av bv = c
  by_cases hab : av = bv
  · simp only [hab, if_true]
    split
    · apply V2.ext <;> simp only [lerp, lerp3] <;> ring
    · split <;> apply V2.ext <;> simp only [lerp, lerp3] <;> ring
  · simp only [hab, if_false, dot]
    split
    · apply V2.ext <;> simp only [lerp, lerp3] <;> ring
    · split <;> apply V2.ext <;> simp only [lerp, lerp3] <;> ring

/-- Exactly when the projection maps different points of the polygon's plane to different points: unless the normal is singular. The hypotheses are
what the code establishes: `l` is the length of the normal, and its component `m` is not zero. -/
theorem C58_injective_iff {n : V3 K} {l : K} {m : Nat} (hl : IsLength n l) (hm : m ≤ 2) (hn : comp n m ≠ 0) :
    (∀ x y, SamePlane n x y → project n l m x = project n l m y → x = y) ↔ ¬ Singular n m := by
  rw [← jac_zero_iff hm hn]
  constructor
  · intro hinj hj
    -- a direction in the plane and a perpendicular one
    have hcomp : ∃ w : V3 K, w ≠ ⟨0, 0, 0⟩ ∧ dot w n = 0 := by
      by_cases h : n.x = 0 ∧ n.y = 0
      · exact ⟨⟨1, 0, 0⟩, by simp, by simp [dot, h.1]⟩
      · refine ⟨⟨n.y, -n.x, 0⟩, fun h' => h ?_, by unfold dot; ring⟩
        have h1 := congrArg V3.x h'; have h2 := congrArg V3.y h'
        simp only [neg_eq_zero] at h1 h2
        exact ⟨h2, h1⟩
    obtain ⟨w, hw, hwn⟩ := hcomp
    have h0 : (⟨0, 0, 0⟩ : V3 K) ≠ w := fun h => hw h.symm
    have hpl : ∀ c : V3 K, dot c n = 0 → orient2d (project n l m ⟨0, 0, 0⟩) (project n l m w) (project n l m c) = 0 := by
      intro c hc
      rw [project_orient hl.1 hm hn (by rw [hwn]; simp [dot]) (by rw [hc]; simp [dot]), hj, zero_mul]
    have hne : project n l m ⟨0, 0, 0⟩ ≠ project n l m w := by
      intro h
      refine h0 (hinj _ _ ?_ h)
      have := hwn; unfold dot at this; unfold SamePlane; simp only; linear_combination -this
    -- the perpendicular direction has a multiple of `w` with the same image
    have hc : dot (cross n w) n = 0 := by unfold dot cross; ring
    obtain ⟨t, ht⟩ := collinear_lerp' hne (hpl _ hc)
    change _ = lerp _ _ t at ht
    rw [← C58_lines] at ht
    have := hinj _ _ (by
      have h1 := hc; have h2 := hwn
      unfold SamePlane lerp3; unfold dot at h1 h2; simp only at *; linear_combination h1 - t * h2) ht
    -- so the perpendicular vector is a multiple of `w`, hence zero
    have hx := congrArg V3.x this; have hy := congrArg V3.y this; have hz := congrArg V3.z this
    simp only [lerp3, cross] at hx hy hz
    have hzero : dot (cross n w) (cross n w) = 0 := by
      unfold dot cross; simp only
      linear_combination (n.y * w.z - n.z * w.y) * hx + (n.z * w.x - n.x * w.z) * hy + (n.x * w.y - n.y * w.x) * hz
    have hnn : n ≠ ⟨0, 0, 0⟩ := by rintro rfl; apply hn; unfold comp; split; · rfl
                                   split <;> rfl
    have hpos := mul_pos (dot_self_pos hnn) (dot_self_pos hw)
    have hlag : dot (cross n w) (cross n w) = dot n n * dot w w - dot w n * dot w n := by unfold dot cross; ring
    rw [hwn, hzero] at hlag
    linarith
  · intro hj x y hxy he
    by_contra hne
    have hw : sub3 x y ≠ ⟨0, 0, 0⟩ := by
      intro h
      have h1 := congrArg V3.x h; have h2 := congrArg V3.y h; have h3 := congrArg V3.z h
      simp only [sub3] at h1 h2 h3
      exact hne (V3.ext (sub_eq_zero.1 h1) (sub_eq_zero.1 h2) (sub_eq_zero.1 h3))
    have hxyd : dot x n = dot y n := hxy
    have hcd : dot (add3 y (cross n (sub3 x y))) n = dot y n := by unfold dot add3 cross sub3; ring
    have ho := project_orient (c := add3 y (cross n (sub3 x y))) hl.1 hm hn hxyd hcd
    rw [he] at ho
    have hz : ∀ p r : V2 K, orient2d p p r = 0 := fun p r => by unfold orient2d; ring
    rw [hz] at ho
    have hself : comp (triNormal y x (add3 y (cross n (sub3 x y)))) m = comp n m * dot (sub3 x y) (sub3 x y) := by
      have hwn : dot (sub3 x y) n = 0 := by unfold dot sub3 at *; linear_combination hxyd
      have : triNormal y x (add3 y (cross n (sub3 x y))) = smul3 (dot (sub3 x y) (sub3 x y)) n := by
        generalize hu : sub3 x y = u at *
        have hx : x = add3 y u := by subst hu; apply V3.ext <;> simp [add3, sub3]
        subst hx
        unfold triNormal smul3 cross add3 sub3 dot at *
        simp only at *
        apply V3.ext <;> simp only
        · linear_combination (-u.x) * hwn
        · linear_combination (-u.y) * hwn
        · linear_combination (-u.z) * hwn
      rw [this]
      unfold comp smul3
      split; · simp only; ring
      split <;> simp only <;> ring
    rw [hself] at ho
    have := dot_self_pos hw
    rcases mul_eq_zero.1 ho.symm with h | h
    · exact hj h
    · rcases mul_eq_zero.1 h with h | h
      · exact hn h
      · linarith

/-- When the dropped component is `y` the projection is always injective on the plane. -/
theorem C58_injective_y {n : V3 K} {l : K} (hl : IsLength n l) (hn : n.y ≠ 0) (x y : V3 K) (hxy : SamePlane n x y)
    (h : project n l 1 x = project n l 1 y) : x = y := by
  refine (C58_injective_iff hl (by omega) (by simpa [comp] using hn)).2 ?_ x y hxy h
  rintro (⟨h, _⟩ | ⟨h, _⟩) <;> omega

/-- For a singular normal the whole plane of the polygon is mapped to one line: every three points become collinear. -/
theorem C58_collapse {n : V3 K} {l : K} {m : Nat} (hl : IsLength n l) (hn : comp n m ≠ 0) (hs : Singular n m)
    (a b c : V3 K) (hab : SamePlane n a b) (hac : SamePlane n a c) :
    collinear (project n l m a) (project n l m b) (project n l m c) = true := by
  have hm : m ≤ 2 := by rcases hs with ⟨h, _⟩ | ⟨h, _⟩ <;> omega
  unfold collinear
  rw [decide_eq_true_eq, project_orient hl.1 hm hn hab.symm hac.symm, (jac_zero_iff hm hn).2 hs, zero_mul]

/-- For every other normal, points of the plane are collinear after the projection only if they were before. -/
theorem C58_collinear_iff {n : V3 K} {l : K} {m : Nat} (hl : IsLength n l) (hm : m ≤ 2) (hn : comp n m ≠ 0) (hs : ¬ Singular n m)
    (a b c : V3 K) (hne : a ≠ b) (hab : SamePlane n a b) (hac : SamePlane n a c) :
    collinear (project n l m a) (project n l m b) (project n l m c) = true ↔ OnLine3 a b c := by
  have hinj := (C58_injective_iff hl hm hn).2 hs
  unfold collinear
  rw [decide_eq_true_eq]
  constructor
  · intro h
    have hpne : project n l m a ≠ project n l m b := fun h' => hne (hinj _ _ hab h')
    obtain ⟨t, ht⟩ := collinear_lerp' hpne h
    change _ = lerp _ _ t at ht
    rw [← C58_lines] at ht
    refine ⟨t, hinj _ _ ?_ ht⟩
    unfold SamePlane lerp3 at *; simp only; linear_combination -hac + t * hab
  · rintro ⟨t, rfl⟩
    rw [C58_lines]; unfold orient2d lerp; ring

/-- The quadrilateral with the corners 0, u, u+v, v for u = (1,-1,-1), v = (0,1,-3): a proper parallelogram. -/
def badQuad (K : Type*) [Field K] : List (V3 K) := [⟨0, 0, 0⟩, ⟨1, -1, -1⟩, ⟨1, 0, -4⟩, ⟨0, 1, -3⟩]

/-- Its plane coefficients, as the library computes them. -/
theorem badQuad_plane : planeCoefficients (badQuad ℝ) = (⟨8, 6, 2⟩, 0, 0) := by
  have h : polygonNormal (badQuad ℝ) = ⟨8, 6, 2⟩ := by
    simp only [badQuad, polygonNormal, normalFrom, cross, sub3, add3]
    apply V3.ext <;> norm_num
  have h0 : dot (⟨0, 0, 0⟩ : V3 ℝ) ⟨8, 6, 2⟩ = 0 := by simp [dot]
  have hl : largestComponent (⟨8, 6, 2⟩ : V3 ℝ) = 0 := by
    have e : ∀ x : ℝ, 0 ≤ x → absK x = x := fun x hx => by rw [absK_eq, abs_of_nonneg hx]
    simp only [largestComponent, e 8 (by norm_num), e 6 (by norm_num), e 2 (by norm_num)]
    norm_num
  unfold planeCoefficients
  rw [h]
  simp only [badQuad, List.headD_cons, h0, hl]

/-- Singular normals occur: for this parallelogram (a convex planar face with non-zero area) the library's own normal is singular, so all its
corners become collinear in the projection. -/
theorem C58_singular_example :
    IsLength (planeCoefficients (badQuad ℝ)).1 (Real.sqrt 104) ∧ Singular (planeCoefficients (badQuad ℝ)).1 (planeCoefficients (badQuad ℝ)).2.2 ∧
    ∀ a ∈ badQuad ℝ, ∀ b ∈ badQuad ℝ, ∀ c ∈ badQuad ℝ,
      collinear (project (planeCoefficients (badQuad ℝ)).1 (Real.sqrt 104) (planeCoefficients (badQuad ℝ)).2.2 a)
        (project (planeCoefficients (badQuad ℝ)).1 (Real.sqrt 104) (planeCoefficients (badQuad ℝ)).2.2 b)
        (project (planeCoefficients (badQuad ℝ)).1 (Real.sqrt 104) (planeCoefficients (badQuad ℝ)).2.2 c) = true := by
  rw [badQuad_plane]
  have hl : IsLength (⟨8, 6, 2⟩ : V3 ℝ) (Real.sqrt 104) :=
    ⟨Real.sqrt_pos.2 (by norm_num), by rw [Real.mul_self_sqrt (by norm_num)]; norm_num⟩
  have hs : Singular (⟨8, 6, 2⟩ : V3 ℝ) 0 := Or.inl ⟨rfl, by norm_num⟩
  have hpl : ∀ a ∈ badQuad ℝ, a.x * 8 + a.y * 6 + a.z * 2 = 0 := by
    intro a ha
    simp only [badQuad, List.mem_cons, List.not_mem_nil, or_false] at ha
    rcases ha with rfl | rfl | rfl | rfl <;> norm_num
  refine ⟨hl, hs, fun a ha b hb c hc => C58_collapse hl (by simp [comp]) hs a b c ?_ ?_⟩
  · unfold SamePlane; rw [hpl a ha, hpl b hb]
  · unfold SamePlane; rw [hpl a ha, hpl c hc]

/-- The hypotheses of the positive statements are met: an oblique, non-singular normal of length 3. -/
theorem C58_demo : IsLength (⟨1, 2, 2⟩ : V3 ℚ) 3 ∧ comp (⟨1, 2, 2⟩ : V3 ℚ) (largestComponent (⟨1, 2, 2⟩ : V3 ℚ)) ≠ 0 ∧
    ¬ Singular (⟨1, 2, 2⟩ : V3 ℚ) (largestComponent (⟨1, 2, 2⟩ : V3 ℚ)) ∧ IsLength (⟨2, 1, 2⟩ : V3 ℚ) 3 ∧ largestComponent (⟨2, 1, 2⟩ : V3 ℚ) = 0 ∧
    ¬ Singular (⟨2, 1, 2⟩ : V3 ℚ) 0 := by
  refine ⟨⟨by norm_num, by norm_num⟩, by decide +kernel, ?_, ⟨by norm_num, by norm_num⟩, by decide +kernel, ?_⟩
  · rw [show largestComponent (⟨1, 2, 2⟩ : V3 ℚ) = 1 by decide +kernel]
    rintro (⟨h, _⟩ | ⟨h, _⟩) <;> omega
  · rintro (⟨_, h⟩ | ⟨h, _⟩)
    · norm_num at h
    · omega

end Mcut.Geom
