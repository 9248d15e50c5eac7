import Verif.Lemmas.C42

namespace Mcut.Geom

variable {K : Type*} [Field K] [LinearOrder K] [IsStrictOrderedRing K]

/-- The triples that are examined are exactly those with first indices 0 and 1. -/
theorem loopK_eq (test : Nat → Nat → Nat → Bool) (n i j : Nat) : ∀ f k, f = n - k →
    loopK test n i j f k = (((List.range' k (n - k)).filter (test i j)).map (fun k => (i, j, k)), max k n) := by
  intro f
  induction f with
  | zero => intro k hf; simp [loopK, ← hf]; omega
  | succ f ih =>
    intro k hf
    have hk : k < n := by omega
    rw [loopK, if_pos hk, ih (k + 1) (by omega)]
    have : n - k = (n - (k + 1)) + 1 := by omega
    rw [this, List.range'_succ, List.filter_cons]
    have hmax : max (k + 1) n = max k n := by omega
    rw [hmax]
    cases test i j k <;> simp

theorem loopJ_full (test : Nat → Nat → Nat → Bool) (n i : Nat) : ∀ f j k, n ≤ k → (loopJ test n i f j k).1 = [] ∧ (loopJ test n i f j k).2.2 = k := by
  intro f
  induction f with
  | zero => intro j k _; simp [loopJ]
  | succ f ih =>
    intro j k hk
    unfold loopJ
    split
    · rw [loopK_eq test n i j (n - k) k rfl]
      have h0 : n - k = 0 := by omega
      have hm : max k n = k := by omega
      simp only [h0, hm, List.range'_zero, List.filter_nil, List.map_nil, List.nil_append]
      exact ih _ _ hk
    · simp

theorem loopI_full (test : Nat → Nat → Nat → Bool) (n : Nat) : ∀ f i j k, n ≤ k → loopI test n f i j k = [] := by
  intro f
  induction f with
  | zero => intro i j k _; simp [loopI]
  | succ f ih =>
    intro i j k hk
    unfold loopI
    split
    · rw [(loopJ_full test n i _ j k hk).1, List.nil_append]
      exact ih _ _ _ (by rw [(loopJ_full test n i _ j k hk).2]; exact hk)
    · rfl

theorem triplets_eq (x : List (V2 K)) (h : 2 ≤ x.length) :
    triplets x = ((List.range' 2 (x.length - 2)).filter (fun k => !collinear (at2 x 0) (at2 x 1) (at2 x k))).map (fun k => (0, 1, k)) := by
  unfold triplets
  generalize hn : x.length = n at *
  obtain ⟨n', rfl⟩ : ∃ n', n = n' + 2 := ⟨n - 2, by omega⟩
  rw [loopI, if_pos (by omega)]
  have hj : n' + 2 - 1 = n' + 1 := by omega
  rw [hj, loopJ, if_pos (by omega), loopK_eq _ _ _ _ _ _ rfl]
  have hm : max 2 (n' + 2) = n' + 2 := by omega
  simp only [hm]
  rw [(loopJ_full _ _ _ _ _ _ (le_refl _)).1, loopI_full _ _ _ _ _ _ (by rw [(loopJ_full _ _ _ _ _ _ (le_refl _)).2]), List.append_nil, List.append_nil]

theorem mem_triplets {x : List (V2 K)} (h : 2 ≤ x.length) {i j k : Nat} :
    (i, j, k) ∈ triplets x ↔ i = 0 ∧ j = 1 ∧ 2 ≤ k ∧ k < x.length ∧ orient2d (at2 x 0) (at2 x 1) (at2 x k) ≠ 0 := by
  rw [triplets_eq x h]
  simp only [List.mem_map, List.mem_filter, List.mem_range'_1, collinear, Bool.not_eq_true', decide_eq_false_iff_not, Prod.mk.injEq]
  constructor
  · rintro ⟨k', ⟨⟨h1, h2⟩, h3⟩, rfl, rfl, rfl⟩
    exact ⟨rfl, rfl, h1, by omega, h3⟩
  · rintro ⟨rfl, rfl, h1, h2, h3⟩
    exact ⟨k, ⟨⟨h1, by omega⟩, h3⟩, rfl, rfl, rfl⟩

theorem absK_eq (x : K) : absK x = |x| := by
  unfold absK
  split
  · rename_i h; rw [abs_of_neg h]
  · rename_i h; rw [abs_of_nonneg (not_lt.1 h)]

/-- A point collinear with `a ≠ b` has a parameter. -/
theorem collinear_lerp' {a b c : V2 K} (h : a ≠ b) (hc : orient2d a b c = 0) : ∃ t, c = ⟨a.x + t * (b.x - a.x), a.y + t * (b.y - a.y)⟩ := by
  unfold orient2d at hc
  have hne : a.x ≠ b.x ∨ a.y ≠ b.y := by
    by_contra hc; push Not at hc; exact h (V2.ext hc.1 hc.2)
  rcases hne with hx | hy
  · have h0 : b.x - a.x ≠ 0 := sub_ne_zero.2 (Ne.symm hx)
    refine ⟨(c.x - a.x) / (b.x - a.x), V2.ext ?_ ?_⟩ <;> simp only
    · field_simp; ring
    · field_simp; linear_combination hc
  · have h0 : b.y - a.y ≠ 0 := sub_ne_zero.2 (Ne.symm hy)
    refine ⟨(c.y - a.y) / (b.y - a.y), V2.ext ?_ ?_⟩ <;> simp only
    · field_simp; linear_combination -hc
    · field_simp; ring

/-- The factor by which the projection scales areas (relative to dropping the coordinate). -/
def jac (n : V3 K) (m : Nat) : K :=
  if m = 0 then (2 * (n.y * n.y - n.z * n.z) - n.x * n.x) / (n.x * n.x)
  else if m = 1 then -(n.y * n.y + 2 * (n.x * n.x + n.z * n.z)) / (n.y * n.y)
  else (2 * (n.y * n.y - n.x * n.x) - n.z * n.z) / (n.z * n.z)

theorem orient2d_shift {p q r : V2 K} {ax ay bx by' cx cy kx ky : K} (hp : p = ⟨ax + kx, ay + ky⟩) (hq : q = ⟨bx + kx, by' + ky⟩)
    (hr : r = ⟨cx + kx, cy + ky⟩) : orient2d p q r = (ax - cx) * (by' - cy) - (ay - cy) * (bx - cx) := by
  rw [hp, hq, hr]; unfold orient2d; ring

/-- The two shapes of the projected point (largest component x): axis-parallel normal, or not. -/
theorem project_cases0 {n : V3 K} {l : K} (hl : 0 < l) (hn : n.x ≠ 0) :
    (n.y = 0 ∧ n.z = 0 ∧ ∀ x, project n l 0 x = ⟨-x.y, x.z⟩) ∨
    ∃ s, ∀ x, project n l 0 x = ⟨2 * n.y * x.x / n.x + x.y + 2 * n.y * s * dot x n / (l * n.x),
      2 * n.z * x.x / n.x - x.z + 2 * n.z * s * dot x n / (l * n.x)⟩ := by
  obtain ⟨s, hs, hss⟩ : ∃ s : K, (if n.x > 0 then 1 else if n.x < 0 then -1 else 0 : K) = s ∧ s * s = 1 := by
    rcases lt_or_gt_of_ne hn with h | h
    · exact ⟨-1, by rw [if_neg (not_lt.2 h.le), if_pos h], by ring⟩
    · exact ⟨1, by rw [if_pos h], by ring⟩
  have hl0 : l ≠ 0 := hl.ne'
  have hs0 : s ≠ 0 := fun h => by rw [h] at hss; simp at hss
  by_cases hab : (⟨n.x / l, n.y / l, n.z / l⟩ : V3 K) = ⟨s, 0, 0⟩
  · left
    have h2 := congrArg V3.y hab
    have h3 := congrArg V3.z hab
    simp only [div_eq_zero_iff, hl0, or_false] at h2 h3
    refine ⟨h2, h3, fun x => ?_⟩
    simp [project, comp, hs, hab]
  · right
    refine ⟨s, fun x => ?_⟩
    simp only [project, comp, if_true, hs, hab, if_false, add3, dot, zero_ne_one, one_ne_zero, OfNat.ofNat_ne_zero, OfNat.zero_ne_ofNat,
      OfNat.one_ne_ofNat, OfNat.ofNat_ne_one]
    apply V2.ext <;> simp only <;> field_simp
    · linear_combination (-(2 * n.x * n.y * (x.x * n.x + x.y * n.y + x.z * n.z))) * hss
    · linear_combination (-(2 * n.x * n.z * (x.x * n.x + x.y * n.y + x.z * n.z))) * hss

/-- The two shapes of the projected point (largest component y): axis-parallel normal, or not. -/
theorem project_cases1 {n : V3 K} {l : K} (hl : 0 < l) (hn : n.y ≠ 0) :
    (n.x = 0 ∧ n.z = 0 ∧ ∀ x, project n l 1 x = ⟨x.x, x.z⟩) ∨
    ∃ s, ∀ x, project n l 1 x = ⟨2 * n.x * x.y / n.y - x.x + 2 * n.x * s * dot x n / (l * n.y),
      2 * n.z * x.y / n.y - x.z + 2 * n.z * s * dot x n / (l * n.y)⟩ := by
  obtain ⟨s, hs, hss⟩ : ∃ s : K, (if n.y > 0 then 1 else if n.y < 0 then -1 else 0 : K) = s ∧ s * s = 1 := by
    rcases lt_or_gt_of_ne hn with h | h
    · exact ⟨-1, by rw [if_neg (not_lt.2 h.le), if_pos h], by ring⟩
    · exact ⟨1, by rw [if_pos h], by ring⟩
  have hl0 : l ≠ 0 := hl.ne'
  have hs0 : s ≠ 0 := fun h => by rw [h] at hss; simp at hss
  by_cases hab : (⟨n.x / l, n.y / l, n.z / l⟩ : V3 K) = ⟨0, s, 0⟩
  · left
    have h2 := congrArg V3.x hab
    have h3 := congrArg V3.z hab
    simp only [div_eq_zero_iff, hl0, or_false] at h2 h3
    refine ⟨h2, h3, fun x => ?_⟩
    simp [project, comp, hs, hab]
  · right
    refine ⟨s, fun x => ?_⟩
    simp only [project, comp, if_true, hs, hab, if_false, add3, dot, zero_ne_one, one_ne_zero, OfNat.ofNat_ne_zero, OfNat.zero_ne_ofNat,
      OfNat.one_ne_ofNat, OfNat.ofNat_ne_one]
    apply V2.ext <;> simp only <;> field_simp
    · linear_combination (-(2 * n.y * n.x * (x.x * n.x + x.y * n.y + x.z * n.z))) * hss
    · linear_combination (-(2 * n.y * n.z * (x.x * n.x + x.y * n.y + x.z * n.z))) * hss

/-- The two shapes of the projected point (largest component z): axis-parallel normal, or not. -/
theorem project_cases2 {n : V3 K} {l : K} (hl : 0 < l) (hn : n.z ≠ 0) :
    (n.x = 0 ∧ n.y = 0 ∧ ∀ x, project n l 2 x = ⟨x.x, -x.y⟩) ∨
    ∃ s, ∀ x, project n l 2 x = ⟨2 * n.x * x.z / n.z - x.x + 2 * n.x * s * dot x n / (l * n.z),
      2 * n.y * x.z / n.z + x.y + 2 * n.y * s * dot x n / (l * n.z)⟩ := by
  obtain ⟨s, hs, hss⟩ : ∃ s : K, (if n.z > 0 then 1 else if n.z < 0 then -1 else 0 : K) = s ∧ s * s = 1 := by
    rcases lt_or_gt_of_ne hn with h | h
    · exact ⟨-1, by rw [if_neg (not_lt.2 h.le), if_pos h], by ring⟩
    · exact ⟨1, by rw [if_pos h], by ring⟩
  have hl0 : l ≠ 0 := hl.ne'
  have hs0 : s ≠ 0 := fun h => by rw [h] at hss; simp at hss
  by_cases hab : (⟨n.x / l, n.y / l, n.z / l⟩ : V3 K) = ⟨0, 0, s⟩
  · left
    have h2 := congrArg V3.x hab
    have h3 := congrArg V3.y hab
    simp only [div_eq_zero_iff, hl0, or_false] at h2 h3
    refine ⟨h2, h3, fun x => ?_⟩
    simp [project, comp, hs, hab]
  · right
    refine ⟨s, fun x => ?_⟩
    simp only [project, comp, if_true, hs, hab, if_false, add3, dot, zero_ne_one, one_ne_zero, OfNat.ofNat_ne_zero, OfNat.zero_ne_ofNat,
      OfNat.one_ne_ofNat, OfNat.ofNat_ne_one]
    apply V2.ext <;> simp only <;> field_simp
    · linear_combination (-(2 * n.z * n.x * (x.x * n.x + x.y * n.y + x.z * n.z))) * hss
    · linear_combination (-(2 * n.z * n.y * (x.x * n.x + x.y * n.y + x.z * n.z))) * hss

/-- Areas in the plane of the polygon: the projection multiplies them by a constant of the plane. -/
theorem project_orient {n : V3 K} {l : K} {m : Nat} (hl : 0 < l) (hm : m ≤ 2) (hn : comp n m ≠ 0) {a b c : V3 K}
    (h1 : dot b n = dot a n) (h2 : dot c n = dot a n) :
    orient2d (project n l m a) (project n l m b) (project n l m c) = jac n m * comp (triNormal a b c) m := by
  have hcase : m = 0 ∨ m = 1 ∨ m = 2 := by omega
  have e1 : dot (sub3 b a) n = 0 := by unfold dot sub3 at *; linear_combination h1
  have e2 : dot (sub3 c a) n = 0 := by unfold dot sub3 at *; linear_combination h2
  rcases hcase with rfl | rfl | rfl
  · simp only [comp, if_true] at hn
    rcases project_cases0 hl hn with ⟨g1, g2, hp⟩ | ⟨s, hp⟩
    · simp only [hp, orient2d, jac, comp, triNormal, cross, sub3, g1, g2, if_true]
      field_simp; ring
    · simp only [hp, h1, h2]
      rw [orient2d_shift rfl rfl rfl]
      simp only [jac, comp, triNormal, cross, sub3, if_true]
      unfold dot sub3 at e1 e2
      simp only at e1 e2
      field_simp
      linear_combination (-2 * n.y * (c.z - a.z) - 2 * n.z * (c.y - a.y)) * e1 + (2 * n.y * (b.z - a.z) + 2 * n.z * (b.y - a.y)) * e2
  · simp only [comp, one_ne_zero, if_true, if_false] at hn
    rcases project_cases1 hl hn with ⟨g1, g2, hp⟩ | ⟨s, hp⟩
    · simp only [hp, orient2d, jac, comp, triNormal, cross, sub3, g1, g2, if_true, one_ne_zero, if_false]
      field_simp; ring
    · simp only [hp, h1, h2]
      rw [orient2d_shift rfl rfl rfl]
      simp only [jac, comp, triNormal, cross, sub3, if_true, one_ne_zero, if_false]
      unfold dot sub3 at e1 e2
      simp only at e1 e2
      field_simp
      linear_combination (-2 * n.x * (c.z - a.z) + 2 * n.z * (c.x - a.x)) * e1 + (2 * n.x * (b.z - a.z) - 2 * n.z * (b.x - a.x)) * e2
  · simp only [comp, OfNat.ofNat_ne_zero, OfNat.ofNat_ne_one, if_true, if_false] at hn
    rcases project_cases2 hl hn with ⟨g1, g2, hp⟩ | ⟨s, hp⟩
    · simp only [hp, orient2d, jac, comp, triNormal, cross, sub3, g1, g2, if_true, OfNat.ofNat_ne_zero, OfNat.ofNat_ne_one, if_false]
      field_simp; ring
    · simp only [hp, h1, h2]
      rw [orient2d_shift rfl rfl rfl]
      simp only [jac, comp, triNormal, cross, sub3, if_true, OfNat.ofNat_ne_zero, OfNat.ofNat_ne_one, if_false]
      unfold dot sub3 at e1 e2
      simp only at e1 e2
      field_simp
      linear_combination (2 * n.x * (c.y - a.y) + 2 * n.y * (c.x - a.x)) * e1 + (-2 * n.x * (b.y - a.y) - 2 * n.y * (b.x - a.x)) * e2

end Mcut.Geom
