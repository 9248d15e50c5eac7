import Mathlib.Tactic.Linarith
import Mathlib.Tactic.Ring
import Mathlib.Tactic.LinearCombination
import Mathlib.Tactic.Positivity
import Mathlib.Tactic.FieldSimp
import Mathlib.Tactic.NormNum
import Verif.Spec.C85

/-! # Lemmas for C85: the super-triangle -/
namespace Mcut.Cdt
open Mcut.Geom
variable {K : Type} [Field K] [LinearOrder K] [IsStrictOrderedRing K]

theorem foldl_expand (pts : List (V2 K)) : ∀ b : V2 K × V2 K,
    (pts.foldl expand b).1.x ≤ b.1.x ∧ (pts.foldl expand b).1.y ≤ b.1.y ∧ b.2.x ≤ (pts.foldl expand b).2.x ∧ b.2.y ≤ (pts.foldl expand b).2.y ∧
    ∀ p ∈ pts, (pts.foldl expand b).1.x ≤ p.x ∧ (pts.foldl expand b).1.y ≤ p.y ∧ p.x ≤ (pts.foldl expand b).2.x ∧ p.y ≤ (pts.foldl expand b).2.y := by
  induction pts with
  | nil => intro b; exact ⟨le_rfl, le_rfl, le_rfl, le_rfl, fun p hp => by simp at hp⟩
  | cons a pts ih =>
    intro b
    obtain ⟨h1, h2, h3, h4, h5⟩ := ih (expand b a)
    rw [List.foldl_cons]
    have e1 : (expand b a).1.x ≤ b.1.x ∧ (expand b a).1.x ≤ a.x := ⟨min_le_right _ _, min_le_left _ _⟩
    have e2 : (expand b a).1.y ≤ b.1.y ∧ (expand b a).1.y ≤ a.y := ⟨min_le_right _ _, min_le_left _ _⟩
    have e3 : b.2.x ≤ (expand b a).2.x ∧ a.x ≤ (expand b a).2.x := ⟨le_max_right _ _, le_max_left _ _⟩
    have e4 : b.2.y ≤ (expand b a).2.y ∧ a.y ≤ (expand b a).2.y := ⟨le_max_right _ _, le_max_left _ _⟩
    refine ⟨h1.trans e1.1, h2.trans e2.1, e3.1.trans h3, e4.1.trans h4, ?_⟩
    intro p hp
    rcases List.mem_cons.1 hp with rfl | hp
    · exact ⟨h1.trans e1.2, h2.trans e2.2, e3.2.trans h3, e4.2.trans h4⟩
    · exact h5 p hp

/-- The corner `i` of the super-triangle from the centre `c` and the radius `r`. -/
theorem super_inside {cx cy r s d w h X Y : K} (hd : 0 < d) (hdd : d * d = w * w + h * h) (hr : r = d / 2 * (11 / 10)) (hs : 0 < s) (hss : s * s = 3) (hX : -(w / 2) ≤ X ∧ X ≤ w / 2) (hY : -(h / 2) ≤ Y ∧ Y ≤ h / 2) :
    0 < orient2d (⟨cx - 2 * r * s / 2, cy - r⟩ : V2 K) ⟨cx + 2 * r * s / 2, cy - r⟩ ⟨cx + X, cy + Y⟩ ∧
    0 < orient2d (⟨cx + 2 * r * s / 2, cy - r⟩ : V2 K) ⟨cx, cy + 2 * r⟩ ⟨cx + X, cy + Y⟩ ∧
    0 < orient2d (⟨cx, cy + 2 * r⟩ : V2 K) ⟨cx - 2 * r * s / 2, cy - r⟩ ⟨cx + X, cy + Y⟩ := by
  have hr0 : 0 < r := by rw [hr]; positivity
  have hX2 : X * X ≤ w / 2 * (w / 2) := by nlinarith [hX.1, hX.2]
  have hY2 : Y * Y ≤ h / 2 * (h / 2) := by nlinarith [hY.1, hY.2]
  have hsum : 4 * (X * X + Y * Y) ≤ d * d := by rw [hdd]; linarith
  have b1 : Y + s * X ≤ d := by
    refine abs_le_of_sq_le_sq' ?_ hd.le |>.2
    have : 4 * (X * X + Y * Y) - (Y + s * X) ^ 2 = (s * Y - X) ^ 2 := by linear_combination (-(Y ^ 2) - X ^ 2) * hss
    nlinarith [sq_nonneg (s * Y - X)]
  have b2 : Y - s * X ≤ d := by
    refine abs_le_of_sq_le_sq' ?_ hd.le |>.2
    have : 4 * (X * X + Y * Y) - (Y - s * X) ^ 2 = (s * Y + X) ^ 2 := by linear_combination (-(Y ^ 2) - X ^ 2) * hss
    nlinarith [sq_nonneg (s * Y + X)]
  have b3 : -Y ≤ d / 2 := by
    refine abs_le_of_sq_le_sq' ?_ (by positivity) |>.2
    nlinarith [mul_self_nonneg X]
  refine ⟨?_, ?_, ?_⟩
  · have e : orient2d (⟨cx - 2 * r * s / 2, cy - r⟩ : V2 K) ⟨cx + 2 * r * s / 2, cy - r⟩ ⟨cx + X, cy + Y⟩ = 2 * (r * s) * (Y + r) := by unfold orient2d; simp only; ring
    rw [e]
    have : 0 < Y + r := by rw [hr]; linarith
    positivity
  · have e : orient2d (⟨cx + 2 * r * s / 2, cy - r⟩ : V2 K) ⟨cx, cy + 2 * r⟩ ⟨cx + X, cy + Y⟩ = (r * s) * (2 * r - (Y + s * X)) := by
      unfold orient2d; simp only; linear_combination (r * X) * hss
    rw [e]
    have : 0 < 2 * r - (Y + s * X) := by rw [hr]; linarith
    positivity
  · have e : orient2d (⟨cx, cy + 2 * r⟩ : V2 K) ⟨cx - 2 * r * s / 2, cy - r⟩ ⟨cx + X, cy + Y⟩ = (r * s) * (2 * r - (Y - s * X)) := by
      unfold orient2d; simp only; linear_combination (-(r * X)) * hss
    rw [e]
    have : 0 < 2 * r - (Y - s * X) := by rw [hr]; linarith
    positivity

/-- At least two points, all different: they are strictly inside the super-triangle. -/
theorem placed_super {sq : K → K} (hsq : ∀ x, 0 ≤ x → 0 ≤ sq x ∧ sq x * sq x = x) (big : K) {pts : List (V2 K)} (hn : pts.Nodup) (h2 : 2 ≤ pts.length) : Placed (places sq big pts) (3 + pts.length) := by
  obtain ⟨-, -, -, -, hb⟩ := foldl_expand pts (⟨big, big⟩, ⟨-big, -big⟩)
  change ∀ p ∈ pts, (boxOf big pts).1.x ≤ p.x ∧ (boxOf big pts).1.y ≤ p.y ∧ p.x ≤ (boxOf big pts).2.x ∧ p.y ≤ (boxOf big pts).2.y at hb
  obtain ⟨b, hbe⟩ : ∃ b, b = boxOf big pts := ⟨_, rfl⟩
  rw [← hbe] at hb
  obtain ⟨w, hw⟩ : ∃ w, w = b.2.x - b.1.x := ⟨_, rfl⟩
  obtain ⟨h, hh⟩ : ∃ h, h = b.2.y - b.1.y := ⟨_, rfl⟩
  have hpos : 0 < w * w + h * h := by
    have hne : pts[0] ≠ pts[1] := by
      intro he
      exact absurd ((hn.getElem_inj_iff).1 he) (by decide)
    have p0 := hb _ (List.getElem_mem (by omega : 0 < pts.length))
    have p1 := hb _ (List.getElem_mem (by omega : 1 < pts.length))
    rcases lt_or_eq_of_le (add_nonneg (mul_self_nonneg w) (mul_self_nonneg h)) with hlt | heq
    · exact hlt
    · exfalso
      have w0 : w = 0 := by nlinarith [mul_self_nonneg w, mul_self_nonneg h]
      have h0 : h = 0 := by nlinarith [mul_self_nonneg w, mul_self_nonneg h]
      apply hne
      ext
      · linarith [p0.1, p0.2.2.1, p1.1, p1.2.2.1]
      · linarith [p0.2.1, p0.2.2.2, p1.2.1, p1.2.2.2]
  obtain ⟨d, hde⟩ : ∃ d, d = sq (w * w + h * h) := ⟨_, rfl⟩
  obtain ⟨s, hse⟩ : ∃ s, s = sq 3 := ⟨_, rfl⟩
  have hd := hsq _ hpos.le
  rw [← hde] at hd
  have hs := hsq 3 (by norm_num)
  rw [← hse] at hs
  have hd0 : 0 < d := by
    rcases lt_or_eq_of_le hd.1 with hh | hh
    · exact hh
    · rw [← hh] at hd; simp only [mul_zero] at hd; exact absurd hd.2 (ne_of_lt hpos)
  have hs0 : 0 < s := by
    rcases lt_or_eq_of_le hs.1 with hh | hh
    · exact hh
    · rw [← hh] at hs; exact absurd hs.2 (by norm_num)
  obtain ⟨r, hr⟩ : ∃ r, r = d / 2 * (11 / 10) := ⟨_, rfl⟩
  obtain ⟨cx, hcx⟩ : ∃ c, c = (b.1.x + b.2.x) / 2 := ⟨_, rfl⟩
  obtain ⟨cy, hcy⟩ : ∃ c, c = (b.1.y + b.2.y) / 2 := ⟨_, rfl⟩
  have c0 : places sq big pts 0 = ⟨cx - 2 * r * s / 2, cy - r⟩ := by
    unfold places superCorner; rw [if_pos (by decide), ← hbe]; simp only [if_true]
    rw [← hw, ← hh, ← hde, ← hse, ← hr, ← hcx, ← hcy]
  have c1 : places sq big pts 1 = ⟨cx + 2 * r * s / 2, cy - r⟩ := by
    unfold places superCorner; rw [if_pos (by decide), ← hbe]; simp only [if_true, if_neg (by decide : ¬(1 = 0))]
    rw [← hw, ← hh, ← hde, ← hse, ← hr, ← hcx, ← hcy]
  have c2 : places sq big pts 2 = ⟨cx, cy + 2 * r⟩ := by
    unfold places superCorner; rw [if_pos (by decide), ← hbe]; simp only [if_neg (by decide : ¬(2 = 0)), if_neg (by decide : ¬(2 = 1))]
    rw [← hw, ← hh, ← hde, ← hr, ← hcx, ← hcy]
  have hr0 : 0 < r := by rw [hr]; positivity
  have cp : ∀ v, 3 ≤ v → v < 3 + pts.length → ∃ hv : v - 3 < pts.length, places sq big pts v = pts[v - 3] := by
    intro v h3 hv
    refine ⟨by omega, ?_⟩
    unfold places
    rw [if_neg (by omega), List.getElem?_eq_getElem (by omega)]; rfl
  refine ⟨?_, ?_, ?_⟩
  · rw [c0, c1, c2]
    have e : orient2d (⟨cx - 2 * r * s / 2, cy - r⟩ : V2 K) ⟨cx + 2 * r * s / 2, cy - r⟩ ⟨cx, cy + 2 * r⟩ = 6 * (r * s * r) := by unfold orient2d; simp only; ring
    rw [e]; positivity
  · intro v h3 hv
    obtain ⟨hl, e⟩ := cp v h3 hv
    rw [c0, c1, c2, e]
    have hp := hb _ (List.getElem_mem hl)
    have ep : pts[v - 3] = ⟨cx + (pts[v - 3].x - cx), cy + (pts[v - 3].y - cy)⟩ := by ext <;> simp
    have := super_inside (cx := cx) (cy := cy) (r := r) (s := s) (d := d) (w := w) (h := h) (X := pts[v - 3].x - cx) (Y := pts[v - 3].y - cy) hd0 hd.2 hr hs0 hs.2
      (by rw [hcx, hw]; constructor <;> linarith [hp.1, hp.2.2.1]) (by rw [hcy, hh]; constructor <;> linarith [hp.2.1, hp.2.2.2])
    rw [← ep] at this
    exact this
  · intro v v' h3 h3' hv hv' he
    obtain ⟨hl, e⟩ := cp v h3 hv
    obtain ⟨hl', e'⟩ := cp v' h3' hv'
    rw [e, e'] at he
    have := (hn.getElem_inj_iff).1 he
    omega

end Mcut.Cdt
