import Mathlib.Tactic.Linarith
import Mathlib.Tactic.Ring
import Mathlib.Tactic.LinearCombination
import Mathlib.Tactic.Positivity
import Verif.Model.Cdt

/-! # Lemmas for C85: geometry -/
namespace Mcut.Cdt
open Mcut.Geom
variable {K : Type} [Field K] [LinearOrder K] [IsStrictOrderedRing K]

theorem orient_rot (a b c : V2 K) : orient2d b c a = orient2d a b c := by unfold orient2d; ring

theorem orient_swap (a b c : V2 K) : orient2d b a c = -orient2d a b c := by unfold orient2d; ring

theorem orient_self (a b : V2 K) : orient2d a a b = 0 := by unfold orient2d; ring

theorem orient_split (a b c p : V2 K) : orient2d a b p + orient2d b c p + orient2d c a p = orient2d a b c := by unfold orient2d; ring

/-- A point on the line of two points, strictly on the inner side of the other two edges of a triangle: strictly on the inner side of the edges of a triangle on the other side. -/
theorem on_edge {a b c d p : V2 K} (h1 : 0 < orient2d a b c) (h2 : 0 < orient2d d c b) (h0 : orient2d p b c = 0) (h3 : 0 < orient2d a b p) (h4 : 0 < orient2d c a p) :
    0 < orient2d d c p ∧ 0 < orient2d b d p := by
  have e1 : orient2d b d p * orient2d a b c = orient2d a b p * orient2d d c b := by
    unfold orient2d at h0 ⊢
    linear_combination (a.x * b.y - a.x * d.y - a.y * b.x + a.y * d.x + b.x * d.y - b.y * d.x) * h0
  have e2 : orient2d d c p * orient2d a b c = orient2d c a p * orient2d d c b := by
    unfold orient2d at h0 ⊢
    linear_combination (a.x * c.y - a.x * d.y - a.y * c.x + a.y * d.x + c.x * d.y - c.y * d.x) * (-h0)
  constructor
  · by_contra h
    have : orient2d d c p * orient2d a b c ≤ 0 := mul_nonpos_of_nonpos_of_nonneg (not_lt.1 h) h1.le
    have := mul_pos h4 h2
    linarith
  · by_contra h
    have : orient2d b d p * orient2d a b c ≤ 0 := mul_nonpos_of_nonpos_of_nonneg (not_lt.1 h) h1.le
    have := mul_pos h3 h2
    linarith

/-- Three vectors in a wedge: the order of the angles is transitive. -/
theorem wedge {x1 x2 y1 y2 z1 z2 : K} (hx1 : 0 ≤ x1) (hx2 : 0 ≤ x2) (hy1 : 0 ≤ y1) (hy2 : 0 ≤ y2) (hz1 : 0 ≤ z1) (hz2 : 0 ≤ z2) (h1 : x2 * y1 < x1 * y2) (h2 : y2 * z1 < y1 * z2) :
    x2 * z1 < x1 * z2 := by
  have a1 : 0 < x1 * y2 := lt_of_le_of_lt (mul_nonneg hx2 hy1) h1
  have a2 : 0 < y1 * z2 := lt_of_le_of_lt (mul_nonneg hy2 hz1) h2
  have py2 : 0 < y2 := lt_of_le_of_ne hy2 (fun h => by rw [← h] at a1; simp at a1)
  have py1 : 0 < y1 := lt_of_le_of_ne hy1 (fun h => by rw [← h] at a2; simp at a2)
  have b : (x2 * y1) * (y2 * z1) < (x1 * y2) * (y1 * z2) := by
    calc (x2 * y1) * (y2 * z1) ≤ (x1 * y2) * (y2 * z1) := mul_le_mul_of_nonneg_right h1.le (mul_nonneg hy2 hz1)
      _ < (x1 * y2) * (y1 * z2) := mul_lt_mul_of_pos_left h2 a1
  have c : (y1 * y2) * (x2 * z1) < (y1 * y2) * (x1 * z2) := by linarith
  exact lt_of_mul_lt_mul_left c (mul_pos py1 py2).le

/-- Around a corner `a` of a triangle `a`, `b`, `c`, the angles of points in the triangle are ordered. -/
theorem corner_trans {a b c x y z : V2 K} (habc : 0 < orient2d a b c) (hx : 0 ≤ orient2d a b x ∧ 0 ≤ orient2d a x c) (hy : 0 ≤ orient2d a b y ∧ 0 ≤ orient2d a y c)
    (hz : 0 ≤ orient2d a b z ∧ 0 ≤ orient2d a z c) (h1 : 0 < orient2d a x y) (h2 : 0 < orient2d a y z) : 0 < orient2d a x z := by
  have e : ∀ p q : V2 K, orient2d a p q * orient2d a b c = orient2d a p c * orient2d a b q - orient2d a b p * orient2d a q c := by
    intro p q; unfold orient2d; ring
  have key := wedge hx.2 hx.1 hy.2 hy.1 hz.2 hz.1 (by have := e x y; have := mul_pos h1 habc; linarith) (by have := e y z; have := mul_pos h2 habc; linarith)
  by_contra h
  have : orient2d a x z * orient2d a b c ≤ 0 := mul_nonpos_of_nonpos_of_nonneg (not_lt.1 h) habc.le
  have := e x z
  linarith

/-- If `p` is inside the circle through `a`, `b`, `c` and beyond the edge from `c` to `a`, then the four points are a convex quadrilateral. -/
theorem circle_half {A C B x y z : K} (hAC : 0 ≤ A ∧ 0 ≤ C ∧ B * B ≤ A * C) (hz : 0 < z) (hs : z < x + y) (hy : y ≤ 0) (hi : (A * x ^ 2 + 2 * B * x * y + C * y ^ 2) < z * (A * x + C * y)) : False := by
  obtain ⟨hA, hC, hB⟩ := hAC
  -- x = z - y + δ
  obtain ⟨s, rfl⟩ : ∃ s, y = -s := ⟨-y, by ring⟩
  have hs0 : 0 ≤ s := by linarith
  obtain ⟨e, rfl⟩ : ∃ e, x = z + s + e := ⟨x - z - s, by ring⟩
  have he : 0 < e := by linarith
  -- quadratic form P A + Q C - 2 R B with P Q ≥ R²
  have hf : (z + s + e) * (s + e) * A + s * (s + z) * C - 2 * ((z + s + e) * s) * B < 0 := by linarith
  have hP : 0 < (z + s + e) * (s + e) := by positivity
  have hQ : 0 ≤ s * (s + z) := by positivity
  have hR : 0 ≤ (z + s + e) * s := by positivity
  have hPQ : ((z + s + e) * s) ^ 2 ≤ ((z + s + e) * (s + e)) * (s * (s + z)) := by
    have : ((z + s + e) * (s + e)) * (s * (s + z)) - ((z + s + e) * s) ^ 2 = (z + s + e) * s * (e * z) := by ring
    have : 0 ≤ (z + s + e) * s * (e * z) := by positivity
    linarith
  set Pp := (z + s + e) * (s + e)
  set Qq := s * (s + z)
  set Rr := (z + s + e) * s
  -- (P A + Q C)^2 ≥ 4 P A Q C ≥ 4 R² B²
  have h1 : (2 * Rr * B) ^ 2 ≤ (Pp * A + Qq * C) ^ 2 := by
    have a1 : (Rr ^ 2) * (B * B) ≤ (Pp * Qq) * (A * C) := mul_le_mul hPQ hB (mul_self_nonneg B) (by positivity)
    have a2 : 0 ≤ (Pp * A - Qq * C) ^ 2 := sq_nonneg _
    have a3 : (Pp * A + Qq * C) ^ 2 = (Pp * A - Qq * C) ^ 2 + 4 * ((Pp * Qq) * (A * C)) := by ring
    have a4 : (2 * Rr * B) ^ 2 = 4 * ((Rr ^ 2) * (B * B)) := by ring
    linarith
  have h2 : 0 ≤ Pp * A + Qq * C := by positivity
  have := abs_le_of_sq_le_sq' h1 h2
  linarith [this.2]

theorem circle_convex {a b c p : V2 K} (h1 : 0 < orient2d a b c) (h2 : 0 < orient2d p a c) (hi : 0 < incircle a b c p) : 0 < orient2d p a b ∧ 0 < orient2d p b c := by
  have cs : ∀ q r : V2 K, ((q.x - p.x) * (r.x - p.x) + (q.y - p.y) * (r.y - p.y)) * ((q.x - p.x) * (r.x - p.x) + (q.y - p.y) * (r.y - p.y)) ≤
      ((q.x - p.x) ^ 2 + (q.y - p.y) ^ 2) * ((r.x - p.x) ^ 2 + (r.y - p.y) ^ 2) := by
    intro q r
    have : ((q.x - p.x) ^ 2 + (q.y - p.y) ^ 2) * ((r.x - p.x) ^ 2 + (r.y - p.y) ^ 2) - ((q.x - p.x) * (r.x - p.x) + (q.y - p.y) * (r.y - p.y)) * ((q.x - p.x) * (r.x - p.x) + (q.y - p.y) * (r.y - p.y)) =
      ((q.x - p.x) * (r.y - p.y) - (q.y - p.y) * (r.x - p.x)) ^ 2 := by ring
    have := sq_nonneg ((q.x - p.x) * (r.y - p.y) - (q.y - p.y) * (r.x - p.x))
    linarith
  have hsum : orient2d p a c < orient2d p b c + orient2d p a b := by
    have : orient2d p a b + orient2d p b c - orient2d p a c = orient2d a b c := by unfold orient2d; ring
    linarith
  have hinc := mul_pos h2 hi
  constructor
  · by_contra h
    refine circle_half (A := (a.x - p.x) ^ 2 + (a.y - p.y) ^ 2) (C := (c.x - p.x) ^ 2 + (c.y - p.y) ^ 2) (B := (a.x - p.x) * (c.x - p.x) + (a.y - p.y) * (c.y - p.y)) (x := orient2d p b c) (y := orient2d p a b)
      ⟨by positivity, by positivity, cs a c⟩ h2 hsum (not_lt.1 h) ?_
    have : orient2d p a c * incircle a b c p = orient2d p a c * (((a.x - p.x) ^ 2 + (a.y - p.y) ^ 2) * orient2d p b c + ((c.x - p.x) ^ 2 + (c.y - p.y) ^ 2) * orient2d p a b) -
        (((a.x - p.x) ^ 2 + (a.y - p.y) ^ 2) * orient2d p b c ^ 2 + 2 * ((a.x - p.x) * (c.x - p.x) + (a.y - p.y) * (c.y - p.y)) * orient2d p b c * orient2d p a b + ((c.x - p.x) ^ 2 + (c.y - p.y) ^ 2) * orient2d p a b ^ 2) := by
      unfold orient2d incircle; ring
    linarith
  · by_contra h
    refine circle_half (A := (c.x - p.x) ^ 2 + (c.y - p.y) ^ 2) (C := (a.x - p.x) ^ 2 + (a.y - p.y) ^ 2) (B := (c.x - p.x) * (a.x - p.x) + (c.y - p.y) * (a.y - p.y)) (x := orient2d p a b) (y := orient2d p b c)
      ⟨by positivity, by positivity, cs c a⟩ h2 (by linarith) (not_lt.1 h) ?_
    have : orient2d p a c * incircle a b c p = orient2d p a c * (((c.x - p.x) ^ 2 + (c.y - p.y) ^ 2) * orient2d p a b + ((a.x - p.x) ^ 2 + (a.y - p.y) ^ 2) * orient2d p b c) -
        (((c.x - p.x) ^ 2 + (c.y - p.y) ^ 2) * orient2d p a b ^ 2 + 2 * ((c.x - p.x) * (a.x - p.x) + (c.y - p.y) * (a.y - p.y)) * orient2d p a b * orient2d p b c + ((a.x - p.x) ^ 2 + (a.y - p.y) ^ 2) * orient2d p b c ^ 2) := by
      unfold orient2d incircle; ring
    linarith

/-! ## How often the boundary of a triangle goes around a point -/

/-- The ray from `q` to the right crosses the edge from `a` to `b`: `1` if the edge goes up, `-1` if it goes down. -/
def cross (q a b : V2 K) : Int :=
  if a.y ≤ q.y ∧ q.y < b.y ∧ 0 < orient2d a b q then 1 else if b.y ≤ q.y ∧ q.y < a.y ∧ orient2d a b q < 0 then -1 else 0

theorem cross_swap (q a b : V2 K) : cross q b a = -cross q a b := by
  unfold cross
  rw [orient_swap a b q]
  by_cases h1 : a.y ≤ q.y ∧ q.y < b.y ∧ 0 < orient2d a b q
  · rw [if_pos h1, if_neg (by rintro ⟨h, -, -⟩; exact absurd h1.2.1 (not_lt.2 h)), if_pos ⟨h1.1, h1.2.1, by linarith [h1.2.2]⟩]
  · rw [if_neg h1]
    by_cases h2 : b.y ≤ q.y ∧ q.y < a.y ∧ orient2d a b q < 0
    · rw [if_pos h2, if_pos ⟨h2.1, h2.2.1, by linarith [h2.2.2]⟩]; rfl
    · rw [if_neg h2, if_neg (by rintro ⟨h, h', h''⟩; exact h2 ⟨h, h', by linarith⟩), if_neg (by rintro ⟨h, h', h''⟩; exact h1 ⟨h, h', by linarith⟩)]; rfl

/-- The sum for a triangle. -/
def wind (q a b c : V2 K) : Int := cross q a b + cross q b c + cross q c a

theorem wind_rot (q a b c : V2 K) : wind q b c a = wind q a b c := by unfold wind; ring

/-- One corner (`a`) above, two below or at the same height. -/
theorem wind_up {q a b c : V2 K} (h : 0 < orient2d a b c) (ha : q.y < a.y) (hb : b.y ≤ q.y) (hc : c.y ≤ q.y) :
    (0 < orient2d a b q → 0 < orient2d c a q → wind q a b c = 1) ∧ (¬(0 ≤ orient2d a b q ∧ 0 ≤ orient2d c a q) → wind q a b c = 0) := by
  have h2 : cross q b c = 0 := by
    unfold cross
    rw [if_neg (by rintro ⟨-, h, -⟩; exact absurd h (not_lt.2 hc)), if_neg (by rintro ⟨-, h, -⟩; exact absurd h (not_lt.2 hb))]
  have h1 : cross q a b = if orient2d a b q < 0 then -1 else 0 := by
    unfold cross
    rw [if_neg (by rintro ⟨h, -, -⟩; exact absurd ha (not_lt.2 h))]
    by_cases h : orient2d a b q < 0
    · rw [if_pos ⟨hb, ha, h⟩, if_pos h]
    · rw [if_neg (fun x => h x.2.2), if_neg h]
  have h3 : cross q c a = if 0 < orient2d c a q then 1 else 0 := by
    unfold cross
    by_cases h : 0 < orient2d c a q
    · rw [if_pos ⟨hc, ha, h⟩, if_pos h]
    · rw [if_neg (fun x => h x.2.2), if_neg h, if_neg (by rintro ⟨h, -, -⟩; exact absurd ha (not_lt.2 h))]
  -- the two edges: the one from `c` to `a` is to the right
  have key : orient2d a b q < 0 → 0 < orient2d c a q := by
    intro hn
    -- at the height of `q`
    have e : orient2d a b q * (a.y - c.y) + orient2d c a q * (a.y - b.y) = orient2d a b c * (a.y - q.y) := by unfold orient2d; ring
    have p1 : 0 < orient2d a b c * (a.y - q.y) := mul_pos h (by linarith)
    have p2 : orient2d a b q * (a.y - c.y) ≤ 0 := mul_nonpos_of_nonpos_of_nonneg hn.le (by linarith)
    by_contra hno
    have : orient2d c a q * (a.y - b.y) ≤ 0 := mul_nonpos_of_nonpos_of_nonneg (not_lt.1 hno) (by linarith)
    linarith
  unfold wind
  rw [h1, h2, h3]
  constructor
  · intro p1 p2
    rw [if_neg (by linarith), if_pos p2]; rfl
  · intro hn
    by_cases hab : orient2d a b q < 0
    · rw [if_pos hab, if_pos (key hab)]; rfl
    · rw [if_neg hab, if_neg (by intro hp; exact hn ⟨not_lt.1 hab, hp.le⟩)]; rfl

/-- One corner (`a`) below or at the same height, two above. -/
theorem wind_down {q a b c : V2 K} (h : 0 < orient2d a b c) (ha : a.y ≤ q.y) (hb : q.y < b.y) (hc : q.y < c.y) :
    (0 < orient2d a b q → 0 < orient2d c a q → wind q a b c = 1) ∧ (¬(0 ≤ orient2d a b q ∧ 0 ≤ orient2d c a q) → wind q a b c = 0) := by
  have h2 : cross q b c = 0 := by
    unfold cross
    rw [if_neg (by rintro ⟨h, -, -⟩; exact absurd hb (not_lt.2 h)), if_neg (by rintro ⟨h, -, -⟩; exact absurd hc (not_lt.2 h))]
  have h1 : cross q a b = if 0 < orient2d a b q then 1 else 0 := by
    unfold cross
    by_cases h : 0 < orient2d a b q
    · rw [if_pos ⟨ha, hb, h⟩, if_pos h]
    · rw [if_neg (fun x => h x.2.2), if_neg h, if_neg (by rintro ⟨h, -, -⟩; exact absurd hb (not_lt.2 h))]
  have h3 : cross q c a = if orient2d c a q < 0 then -1 else 0 := by
    unfold cross
    rw [if_neg (by rintro ⟨h, -, -⟩; exact absurd hc (not_lt.2 h))]
    by_cases h : orient2d c a q < 0
    · rw [if_pos ⟨ha, hc, h⟩, if_pos h]
    · rw [if_neg (fun x => h x.2.2), if_neg h]
  have key : orient2d c a q < 0 → 0 < orient2d a b q ∨ (orient2d a b q = 0 ∧ a.y = q.y) := by
    intro hn
    have e : orient2d a b q * (c.y - a.y) + orient2d c a q * (b.y - a.y) = orient2d a b c * (q.y - a.y) := by unfold orient2d; ring
    have p1 : 0 ≤ orient2d a b c * (q.y - a.y) := mul_nonneg h.le (by linarith)
    have p2 : orient2d c a q * (b.y - a.y) < 0 := mul_neg_of_neg_of_pos hn (by linarith)
    left
    by_contra hno
    have : orient2d a b q * (c.y - a.y) ≤ 0 := mul_nonpos_of_nonpos_of_nonneg (not_lt.1 hno) (by linarith)
    linarith
  unfold wind
  rw [h1, h2, h3]
  constructor
  · intro p1 p2
    rw [if_pos p1, if_neg (by linarith)]; rfl
  · intro hn
    by_cases hca : orient2d c a q < 0
    · rw [if_pos hca]
      rcases key hca with h | ⟨h, hy⟩
      · rw [if_pos h]; rfl
      · exfalso
        have e : orient2d a b q * (c.y - a.y) + orient2d c a q * (b.y - a.y) = orient2d a b c * (q.y - a.y) := by unfold orient2d; ring
        rw [h, hy] at e
        have : orient2d c a q * (b.y - q.y) < 0 := mul_neg_of_neg_of_pos hca (by linarith)
        linarith
    · rw [if_neg hca]
      rw [if_neg (by intro hp; exact hn ⟨hp.le, not_lt.1 hca⟩)]; rfl

/-- The boundary of a triangle (counter-clockwise) goes around the points that are strictly inside once, and not around those that are outside. -/
theorem wind_spec {q a b c : V2 K} (h : 0 < orient2d a b c) :
    (0 < orient2d a b q → 0 < orient2d b c q → 0 < orient2d c a q → wind q a b c = 1) ∧
    (¬(0 ≤ orient2d a b q ∧ 0 ≤ orient2d b c q ∧ 0 ≤ orient2d c a q) → wind q a b c = 0) := by
  have hb := orient_rot a b c
  have hc := orient_rot b c a
  have ebc : wind q b c a = wind q a b c := wind_rot q a b c
  have eca : wind q c a b = wind q a b c := by rw [wind_rot q b c a, ebc]
  -- a convexity fact
  have third : ∀ {a b c : V2 K}, 0 < orient2d a b c → 0 ≤ orient2d a b q → 0 ≤ orient2d c a q → orient2d b c q < 0 → (q.y < a.y → b.y ≤ q.y → c.y ≤ q.y → False) ∧ (a.y ≤ q.y → q.y < b.y → q.y < c.y → False) := by
    intro a b c h h1 h2 h3
    have e : orient2d a b q * (c.y - q.y) + orient2d b c q * (a.y - q.y) + orient2d c a q * (b.y - q.y) = 0 := by unfold orient2d; ring
    constructor
    · intro p1 p2 p3
      have t1 : orient2d a b q * (c.y - q.y) ≤ 0 := mul_nonpos_of_nonneg_of_nonpos h1 (by linarith)
      have t2 : orient2d b c q * (a.y - q.y) < 0 := mul_neg_of_neg_of_pos h3 (by linarith)
      have t3 : orient2d c a q * (b.y - q.y) ≤ 0 := mul_nonpos_of_nonneg_of_nonpos h2 (by linarith)
      linarith
    · intro p1 p2 p3
      have t1 : 0 ≤ orient2d a b q * (c.y - q.y) := mul_nonneg h1 (by linarith)
      have t2 : 0 ≤ orient2d b c q * (a.y - q.y) := mul_nonneg_of_nonpos_of_nonpos h3.le (by linarith)
      have t3 : 0 ≤ orient2d c a q * (b.y - q.y) := mul_nonneg h2 (by linarith)
      have hs := orient_split a b c q
      -- all zero
      have z1 : orient2d a b q * (c.y - q.y) = 0 := by linarith
      have z3 : orient2d c a q * (b.y - q.y) = 0 := by linarith
      have z1 : orient2d a b q = 0 := by rcases mul_eq_zero.1 z1 with h | h <;> [exact h; linarith]
      have z3 : orient2d c a q = 0 := by rcases mul_eq_zero.1 z3 with h | h <;> [exact h; linarith]
      linarith
  have out : ∀ {a b c : V2 K}, 0 < orient2d a b c → ((q.y < a.y ∧ b.y ≤ q.y ∧ c.y ≤ q.y) ∨ (a.y ≤ q.y ∧ q.y < b.y ∧ q.y < c.y)) →
      (0 < orient2d a b q → 0 < orient2d b c q → 0 < orient2d c a q → wind q a b c = 1) ∧ (¬(0 ≤ orient2d a b q ∧ 0 ≤ orient2d b c q ∧ 0 ≤ orient2d c a q) → wind q a b c = 0) := by
    intro a b c h hh
    have W : (0 < orient2d a b q → 0 < orient2d c a q → wind q a b c = 1) ∧ (¬(0 ≤ orient2d a b q ∧ 0 ≤ orient2d c a q) → wind q a b c = 0) := by
      rcases hh with ⟨p1, p2, p3⟩ | ⟨p1, p2, p3⟩
      · exact wind_up h p1 p2 p3
      · exact wind_down h p1 p2 p3
    refine ⟨fun q1 _ q3 => W.1 q1 q3, fun hn => W.2 (fun ⟨q1, q3⟩ => ?_)⟩
    have hneg : orient2d b c q < 0 := by
      by_contra hx
      exact hn ⟨q1, not_lt.1 hx, q3⟩
    obtain ⟨T1, T2⟩ := third h q1 q3 hneg
    rcases hh with ⟨p1, p2, p3⟩ | ⟨p1, p2, p3⟩
    · exact T1 p1 p2 p3
    · exact T2 p1 p2 p3
  have e : orient2d a b q * (c.y - q.y) + orient2d b c q * (a.y - q.y) + orient2d c a q * (b.y - q.y) = 0 := by unfold orient2d; ring
  by_cases ya : q.y < a.y <;> by_cases yb : q.y < b.y <;> by_cases yc : q.y < c.y
  · -- all above
    constructor
    · intro p1 p2 p3
      have := mul_pos p1 (sub_pos.2 yc)
      have := mul_pos p2 (sub_pos.2 ya)
      have := mul_pos p3 (sub_pos.2 yb)
      linarith
    · intro _
      have z : ∀ {a b : V2 K}, q.y < a.y → q.y < b.y → cross q a b = 0 := by
        intro a b ha hb
        unfold cross
        rw [if_neg (fun x => absurd ha (not_lt.2 x.1)), if_neg (fun x => absurd hb (not_lt.2 x.1))]
      unfold wind; rw [z ya yb, z yb yc, z yc ya]; rfl
  · obtain ⟨W1, W2⟩ := out (a := c) (b := a) (c := b) (by rw [orient_rot b c a, orient_rot a b c]; exact h) (.inr ⟨not_lt.1 yc, ya, yb⟩)
    rw [eca] at W1 W2
    exact ⟨fun p1 p2 p3 => W1 p3 p1 p2, fun hn => W2 (fun x => hn ⟨x.2.1, x.2.2, x.1⟩)⟩
  · obtain ⟨W1, W2⟩ := out (a := b) (b := c) (c := a) (by rw [orient_rot a b c]; exact h) (.inr ⟨not_lt.1 yb, yc, ya⟩)
    rw [ebc] at W1 W2
    exact ⟨fun p1 p2 p3 => W1 p2 p3 p1, fun hn => W2 (fun x => hn ⟨x.2.2, x.1, x.2.1⟩)⟩
  · exact out h (.inl ⟨ya, not_lt.1 yb, not_lt.1 yc⟩)
  · exact out h (.inr ⟨not_lt.1 ya, yb, yc⟩)
  · obtain ⟨W1, W2⟩ := out (a := b) (b := c) (c := a) (by rw [orient_rot a b c]; exact h) (.inl ⟨yb, not_lt.1 yc, not_lt.1 ya⟩)
    rw [ebc] at W1 W2
    exact ⟨fun p1 p2 p3 => W1 p2 p3 p1, fun hn => W2 (fun x => hn ⟨x.2.2, x.1, x.2.1⟩)⟩
  · obtain ⟨W1, W2⟩ := out (a := c) (b := a) (c := b) (by rw [orient_rot b c a, orient_rot a b c]; exact h) (.inl ⟨yc, not_lt.1 ya, not_lt.1 yb⟩)
    rw [eca] at W1 W2
    exact ⟨fun p1 p2 p3 => W1 p3 p1 p2, fun hn => W2 (fun x => hn ⟨x.2.1, x.2.2, x.1⟩)⟩
  · -- all below or at the same height
    have ya := not_lt.1 ya
    have yb := not_lt.1 yb
    have yc := not_lt.1 yc
    constructor
    · intro p1 p2 p3
      exfalso
      have t1 : orient2d a b q * (c.y - q.y) ≤ 0 := mul_nonpos_of_nonneg_of_nonpos p1.le (by linarith)
      have t2 : orient2d b c q * (a.y - q.y) ≤ 0 := mul_nonpos_of_nonneg_of_nonpos p2.le (by linarith)
      have t3 : orient2d c a q * (b.y - q.y) ≤ 0 := mul_nonpos_of_nonneg_of_nonpos p3.le (by linarith)
      have z1 : orient2d a b q * (c.y - q.y) = 0 := by linarith
      have z2 : orient2d b c q * (a.y - q.y) = 0 := by linarith
      have z3 : orient2d c a q * (b.y - q.y) = 0 := by linarith
      have z1 : c.y - q.y = 0 := by rcases mul_eq_zero.1 z1 with h | h <;> [linarith; exact h]
      have z2 : a.y - q.y = 0 := by rcases mul_eq_zero.1 z2 with h | h <;> [linarith; exact h]
      have z3 : b.y - q.y = 0 := by rcases mul_eq_zero.1 z3 with h | h <;> [linarith; exact h]
      have e1 : a.y = q.y := by linarith
      have e2 : b.y = q.y := by linarith
      have e3 : c.y = q.y := by linarith
      unfold orient2d at h
      rw [e1, e2, e3] at h
      simp at h
    · intro _
      have z : ∀ {a b : V2 K}, a.y ≤ q.y → b.y ≤ q.y → cross q a b = 0 := by
        intro a b ha hb
        unfold cross
        rw [if_neg (fun x => absurd x.2.1 (not_lt.2 hb)), if_neg (fun x => absurd x.2.1 (not_lt.2 ha))]
      unfold wind; rw [z ya yb, z yb yc, z yc ya]; rfl

/-- Never negative, never more than once, also on the boundary. -/
theorem wind_bound {q a b c : V2 K} (h : 0 < orient2d a b c) : 0 ≤ wind q a b c ∧ wind q a b c ≤ 1 := by
  have up : ∀ {a b c : V2 K}, 0 < orient2d a b c → q.y < a.y → b.y ≤ q.y → c.y ≤ q.y → 0 ≤ wind q a b c ∧ wind q a b c ≤ 1 := by
    intro a b c h ha hb hc
    by_cases h1 : 0 ≤ orient2d a b q ∧ 0 ≤ orient2d c a q
    · have c1 : cross q a b = 0 := by
        unfold cross
        rw [if_neg (fun x => absurd ha (not_lt.2 x.1)), if_neg (fun x => absurd x.2.2 (not_lt.2 h1.1))]
      have c2 : cross q b c = 0 := by
        unfold cross
        rw [if_neg (fun x => absurd x.2.1 (not_lt.2 hc)), if_neg (fun x => absurd x.2.1 (not_lt.2 hb))]
      have c3 : cross q c a = 0 ∨ cross q c a = 1 := by
        unfold cross
        split
        · right; rfl
        · rw [if_neg (fun x => absurd x.2.2 (not_lt.2 h1.2))]; left; rfl
      unfold wind; omega
    · rw [(wind_up h ha hb hc).2 h1]; omega
  have down : ∀ {a b c : V2 K}, 0 < orient2d a b c → a.y ≤ q.y → q.y < b.y → q.y < c.y → 0 ≤ wind q a b c ∧ wind q a b c ≤ 1 := by
    intro a b c h ha hb hc
    by_cases h1 : 0 ≤ orient2d a b q ∧ 0 ≤ orient2d c a q
    · have c3 : cross q c a = 0 := by
        unfold cross
        rw [if_neg (fun x => absurd hc (not_lt.2 x.1)), if_neg (fun x => absurd x.2.2 (not_lt.2 h1.2))]
      have c2 : cross q b c = 0 := by
        unfold cross
        rw [if_neg (fun x => absurd hb (not_lt.2 x.1)), if_neg (fun x => absurd hc (not_lt.2 x.1))]
      have c1 : cross q a b = 0 ∨ cross q a b = 1 := by
        unfold cross
        split
        · right; rfl
        · rw [if_neg (fun x => absurd x.2.2 (not_lt.2 h1.1))]; left; rfl
      unfold wind; omega
    · rw [(wind_down h ha hb hc).2 h1]; omega
  have hb := orient_rot a b c
  have hc := orient_rot b c a
  have ebc : wind q b c a = wind q a b c := wind_rot q a b c
  have eca : wind q c a b = wind q a b c := by rw [wind_rot q b c a, ebc]
  have h2 : 0 < orient2d b c a := by rw [hb]; exact h
  have h3 : 0 < orient2d c a b := by rw [hc]; exact h2
  by_cases ya : q.y < a.y <;> by_cases yb : q.y < b.y <;> by_cases yc : q.y < c.y
  · have z : ∀ {a b : V2 K}, q.y < a.y → q.y < b.y → cross q a b = 0 := by
      intro a b ha hb
      unfold cross
      rw [if_neg (fun x => absurd ha (not_lt.2 x.1)), if_neg (fun x => absurd hb (not_lt.2 x.1))]
    unfold wind; rw [z ya yb, z yb yc, z yc ya]; omega
  · rw [← eca]; exact down h3 (not_lt.1 yc) ya yb
  · rw [← ebc]; exact down h2 (not_lt.1 yb) yc ya
  · exact up h ya (not_lt.1 yb) (not_lt.1 yc)
  · exact down h (not_lt.1 ya) yb yc
  · rw [← ebc]; exact up h2 yb (not_lt.1 yc) (not_lt.1 ya)
  · rw [← eca]; exact up h3 yc (not_lt.1 ya) (not_lt.1 yb)
  · have z : ∀ {a b : V2 K}, a.y ≤ q.y → b.y ≤ q.y → cross q a b = 0 := by
      intro a b ha hb
      unfold cross
      rw [if_neg (fun x => absurd x.2.1 (not_lt.2 hb)), if_neg (fun x => absurd x.2.1 (not_lt.2 ha))]
    unfold wind; rw [z (not_lt.1 ya) (not_lt.1 yb), z (not_lt.1 yb) (not_lt.1 yc), z (not_lt.1 yc) (not_lt.1 ya)]; omega

/-- A point on two edges of a triangle is their common corner. -/
theorem two_edges {a b c p : V2 K} (h : 0 < orient2d a b c) (h1 : orient2d p c a = 0) (h2 : orient2d p b c = 0) : p = c := by
  have ex : (p.x - c.x) * orient2d a b c = 0 := by
    unfold orient2d at *
    linear_combination (b.x - c.x) * h1 + (a.x - c.x) * h2
  have ey : (p.y - c.y) * orient2d a b c = 0 := by
    unfold orient2d at *
    linear_combination (b.y - c.y) * h1 + (a.y - c.y) * h2
  have := ne_of_gt h
  ext
  · rcases mul_eq_zero.1 ex with h | h
    · linarith
    · exact absurd h (by assumption)
  · rcases mul_eq_zero.1 ey with h | h
    · linarith
    · exact absurd h (by assumption)

end Mcut.Cdt
