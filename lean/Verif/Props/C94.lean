import Verif.Model.Section
import Mathlib.Tactic.Ring
import Mathlib.Tactic.Linarith
import Mathlib.Tactic.FieldSimp
import Mathlib.Tactic.LinearCombination
import Mathlib.Tactic.NormNum
import Mathlib.Tactic.IntervalCases
import Mathlib.Analysis.Real.Sqrt

/-!
# C94: planar sections
-/
namespace Mcut.PlanarSection
open Mcut.Geom

variable {K : Type*} [Field K] [LinearOrder K] [IsStrictOrderedRing K]

/-- `sq` is the square root (specification). -/
def IsSqrt (sq : K → K) : Prop := ∀ x, 0 ≤ x → 0 ≤ sq x ∧ sq x * sq x = x

omit [IsStrictOrderedRing K] in
/-- **C94 (offset).** The section offset has no effect: for every mesh and every normal all offsets give the same triangle. -/
theorem C94_offset_fails (sq : K → K) (big : K) (vs : List (V3 K)) (normal : V3 K) (o o' eps : K) :
    superTriangle sq big vs normal o eps = superTriangle sq big vs normal o' eps := rfl

/-- **C94 (check).** No section offset is refused, although only those between 0 and 1 make sense. -/
theorem C94_check_fails (offset : K) : offsetRefused offset = false := by
  unfold offsetRefused
  rw [Bool.and_eq_false_iff, decide_eq_false_iff_not, decide_eq_false_iff_not]
  by_contra h
  push Not at h
  exact absurd (h.2.trans h.1) (not_le.mpr zero_lt_one)

section Vectors
omit [LinearOrder K] [IsStrictOrderedRing K] in
theorem dot_cross_left (a b : V3 K) : dot (cross a b) a = 0 := by simp only [dot, cross]; ring
omit [LinearOrder K] [IsStrictOrderedRing K] in
theorem dot_cross_right (a b : V3 K) : dot (cross a b) b = 0 := by simp only [dot, cross]; ring
omit [LinearOrder K] [IsStrictOrderedRing K] in
theorem dot_add (a b c : V3 K) : dot (add3 a b) c = dot a c + dot b c := by simp only [dot, add3]; ring
omit [LinearOrder K] [IsStrictOrderedRing K] in
theorem dot_sub (a b c : V3 K) : dot (sub3 a b) c = dot a c - dot b c := by simp only [dot, sub3]; ring
omit [LinearOrder K] [IsStrictOrderedRing K] in
theorem dot_mul (a c : V3 K) (r : K) : dot (mul3 a r) c = dot a c * r := by simp only [dot, mul3]; ring
omit [LinearOrder K] [IsStrictOrderedRing K] in
theorem dot_div (a c : V3 K) (r : K) : dot (div3 a r) c = dot a c / r := by simp only [dot, div3]; ring
omit [LinearOrder K] [IsStrictOrderedRing K] in
theorem dot_comm (a c : V3 K) : dot a c = dot c a := by simp only [dot]; ring

theorem dot_self_nonneg (a : V3 K) : 0 ≤ dot a a := by simp only [dot]; nlinarith [mul_self_nonneg a.x, mul_self_nonneg a.y, mul_self_nonneg a.z]

theorem dot_self_zero {a : V3 K} (h : dot a a = 0) : a = ⟨0, 0, 0⟩ := by
  simp only [dot] at h
  have hx := mul_self_nonneg a.x
  have hy := mul_self_nonneg a.y
  have hz := mul_self_nonneg a.z
  have x0 : a.x * a.x = 0 := by linarith
  have y0 : a.y * a.y = 0 := by linarith
  have z0 : a.z * a.z = 0 := by linarith
  ext
  · exact mul_self_eq_zero.mp x0
  · exact mul_self_eq_zero.mp y0
  · exact mul_self_eq_zero.mp z0
end Vectors

variable {sq : K → K}

theorem length_zero (hsq : IsSqrt sq) (v : V3 K) : length sq v = 0 ↔ v = ⟨0, 0, 0⟩ := by
  have h := hsq _ (dot_self_nonneg v)
  unfold length
  constructor
  · intro h0
    rw [h0, mul_zero] at h
    exact dot_self_zero h.2.symm
  · rintro rfl
    have : dot (⟨0, 0, 0⟩ : V3 K) ⟨0, 0, 0⟩ = 0 := by simp [dot]
    rw [this] at h ⊢
    exact mul_self_eq_zero.mp h.2

theorem normalize_none (hsq : IsSqrt sq) (v : V3 K) : normalize sq v = none ↔ v = ⟨0, 0, 0⟩ := by
  unfold normalize
  rw [← length_zero hsq]
  split <;> simp [*]

theorem normalize_some (hsq : IsSqrt sq) {v n : V3 K} (h : normalize sq v = some n) :
    0 < length sq v ∧ n = div3 v (length sq v) ∧ v = mul3 n (length sq v) ∧ dot n n = 1 := by
  unfold normalize at h
  split at h
  · exact absurd h (by simp)
  · rename_i h0
    cases h
    have hs := hsq _ (dot_self_nonneg v)
    refine ⟨lt_of_le_of_ne hs.1 (Ne.symm h0), rfl, ?_, ?_⟩
    · simp only [mul3, div3, div_mul_cancel₀ _ h0]
    · rw [dot_div, dot_comm, dot_div, div_div, div_eq_one_iff_eq (mul_ne_zero h0 h0)]
      exact hs.2.symm

omit [IsStrictOrderedRing K] in
theorem superTriangle_some {big : K} {vs : List (V3 K)} {normal : V3 K} {o eps : K} {a b c : V3 K}
    (h : superTriangle sq big vs normal o eps = some (a, b, c)) :
    ∃ n p q r m d, normalize sq normal = some n ∧ normalize sq (add3 (cross n (helper n)) (cross n (cross n (helper n)))) = some p
      ∧ normalize sq (sub3 (cross n (helper n)) (cross n (cross n (helper n)))) = some q ∧ normalize sq (add3 p q) = some r
      ∧ m = sub3 (div3 (scan big n vs).mean (vs.length : K)) (mul3 n (dot (div3 (scan big n vs).mean (vs.length : K)) n))
      ∧ d = length sq (sub3 (scan big n vs).bboxMax (scan big n vs).bboxMin)
      ∧ a = add3 m (mul3 p (d * 2)) ∧ b = add3 m (mul3 q (d * 2)) ∧ c = sub3 m (mul3 r (d * 2)) := by
  simp only [superTriangle, Option.bind_eq_some_iff] at h
  obtain ⟨n, hn, p, hp, q, hq, r, hr, e⟩ := h
  simp only [Option.some.injEq, Prod.mk.injEq] at e
  exact ⟨n, p, q, r, _, _, hn, hp, hq, hr, rfl, rfl, e.1.symm, e.2.1.symm, e.2.2.symm⟩

/-- **C94 (plane).** The triangle lies in the plane through the origin of the coordinates that is orthogonal to the normal, wherever the mesh is. -/
theorem C94_plane_partial (hsq : IsSqrt sq) (big : K) (vs : List (V3 K)) (normal : V3 K) (o eps : K) (a b c : V3 K)
    (h : superTriangle sq big vs normal o eps = some (a, b, c)) : dot a normal = 0 ∧ dot b normal = 0 ∧ dot c normal = 0 := by
  obtain ⟨n, p, q, r, m, d, hn, hp, hq, hr, hm, hd, rfl, rfl, rfl⟩ := superTriangle_some h
  obtain ⟨l0, -, e, n1⟩ := normalize_some hsq hn
  have hu := dot_cross_left n (helper n)
  have hv := dot_cross_left n (cross n (helper n))
  have pn : dot p n = 0 := by rw [(normalize_some hsq hp).2.1, dot_div, dot_add, hu, hv, add_zero, zero_div]
  have qn : dot q n = 0 := by rw [(normalize_some hsq hq).2.1, dot_div, dot_sub, hu, hv, sub_zero, zero_div]
  have rn : dot r n = 0 := by rw [(normalize_some hsq hr).2.1, dot_div, dot_add, pn, qn, add_zero, zero_div]
  have mn : dot m n = 0 := by rw [hm, dot_sub, dot_mul, n1, one_mul, sub_self]
  have key : ∀ x : V3 K, dot x n = 0 → dot x normal = 0 := by
    intro x hx
    rw [e, dot_comm, dot_mul, dot_comm, hx, zero_mul]
  refine ⟨key _ ?_, key _ ?_, key _ ?_⟩
  · rw [dot_add, dot_mul, mn, pn, zero_mul, add_zero]
  · rw [dot_add, dot_mul, mn, qn, zero_mul, add_zero]
  · rw [dot_sub, dot_mul, mn, rn, zero_mul, sub_zero]

/-- **C94 (missed).** So a mesh that is on one side of the plane through the origin is not cut by the section, whatever the offset: all of its vertices are strictly on one side of
the plane of the triangle. -/
theorem C94_missed_fails (hsq : IsSqrt sq) (big : K) (vs : List (V3 K)) (normal : V3 K) (o eps : K) (a b c : V3 K)
    (h : superTriangle sq big vs normal o eps = some (a, b, c)) (hside : ∀ p ∈ vs, 0 < dot p normal) :
    ∀ p ∈ vs, 0 < dot (sub3 p a) normal ∧ 0 < dot (sub3 p b) normal ∧ 0 < dot (sub3 p c) normal := by
  obtain ⟨ha, hb, hc⟩ := C94_plane_partial hsq big vs normal o eps a b c h
  intro p hp
  rw [dot_sub, dot_sub, dot_sub, ha, hb, hc, sub_zero]
  exact ⟨hside p hp, hside p hp, hside p hp⟩

/-- The vector points along a negative axis (specification). -/
def NegativeAxis (v : V3 K) : Prop := ∃ c > 0, v = ⟨-c, 0, 0⟩ ∨ v = ⟨0, -c, 0⟩ ∨ v = ⟨0, 0, -c⟩

omit [IsStrictOrderedRing K] in
theorem maxComp_lt (n : V3 K) : maxComp n < 3 := by
  unfold maxComp
  split <;> simp only <;> split <;> omega

theorem cross_helper_zero {n : V3 K} (h1 : dot n n = 1) : cross n (helper n) = ⟨0, 0, 0⟩ ↔ n = ⟨-1, 0, 0⟩ ∨ n = ⟨0, -1, 0⟩ ∨ n = ⟨0, 0, -1⟩ := by
  constructor
  · intro h
    have hk := maxComp_lt n
    obtain ⟨x, y, z⟩ := n
    unfold helper at h
    generalize maxComp (⟨x, y, z⟩ : V3 K) = k at h hk
    simp only [dot] at h1
    interval_cases k
    · by_cases e : axis 0 = (⟨x, y, z⟩ : V3 K)
      · rw [if_pos e] at h
        simp only [axis, V3.mk.injEq] at e
        obtain ⟨rfl, rfl, rfl⟩ := e
        simp [axis, cross] at h
      · rw [if_neg e] at h
        simp [axis, cross] at h e
        obtain ⟨rfl, rfl⟩ := h
        have : (x - 1) * (x + 1) = 0 := by linear_combination h1
        rcases mul_eq_zero.mp this with h | h
        · exact absurd rfl (e (by linear_combination -h) rfl)
        · left; rw [show x = -1 by linear_combination h]
    · by_cases e : axis 1 = (⟨x, y, z⟩ : V3 K)
      · rw [if_pos e] at h
        simp only [axis, V3.mk.injEq] at e
        obtain ⟨rfl, rfl, rfl⟩ := e
        simp [axis, cross] at h
      · rw [if_neg e] at h
        simp [axis, cross] at h e
        obtain ⟨rfl, rfl⟩ := h
        have : (y - 1) * (y + 1) = 0 := by linear_combination h1
        rcases mul_eq_zero.mp this with h | h
        · exact absurd rfl (e rfl (by linear_combination -h))
        · right; left; rw [show y = -1 by linear_combination h]
    · by_cases e : axis 2 = (⟨x, y, z⟩ : V3 K)
      · rw [if_pos e] at h
        simp only [axis, V3.mk.injEq] at e
        obtain ⟨rfl, rfl, rfl⟩ := e
        simp [axis, cross] at h
      · rw [if_neg e] at h
        simp [axis, cross] at h e
        obtain ⟨rfl, rfl⟩ := h
        have : (z - 1) * (z + 1) = 0 := by linear_combination h1
        rcases mul_eq_zero.mp this with h | h
        · exact absurd (by linear_combination -h) (e rfl rfl)
        · right; right; rw [show z = -1 by linear_combination h]
  · have h10 : ¬ (1 : K) < 0 := not_lt.mpr zero_le_one
    have hne : (1 : K) ≠ -1 := fun h => by linarith [zero_lt_one (α := K)]
    rintro (rfl | rfl | rfl)
    · have : maxComp (⟨-1, 0, 0⟩ : V3 K) = 0 := by simp [maxComp, h10]
      simp [helper, this, axis, cross, hne]
    · have : maxComp (⟨0, -1, 0⟩ : V3 K) = 1 := by simp [maxComp, h10]
      simp [helper, this, axis, cross, hne]
    · have : maxComp (⟨0, 0, -1⟩ : V3 K) = 2 := by simp [maxComp]
      simp [helper, this, axis, cross, hne]

omit [LinearOrder K] [IsStrictOrderedRing K] in
/-- The lengths that the code divides by. -/
theorem frame {n : V3 K} (h1 : dot n n = 1) (u : V3 K) (hu : dot u n = 0) :
    dot u (cross n u) = 0 ∧ dot (cross n u) (cross n u) = dot u u := by
  have h2 : dot (cross n u) (cross n u) = dot n n * dot u u - dot u n * dot u n := by simp only [dot, cross]; ring
  refine ⟨by simp only [dot, cross]; ring, ?_⟩
  rw [h2, h1, hu]; ring

/-- **C94 (defined).** For a normal that is not zero the triangle is computed without a division by zero exactly if the normal does not point along a negative axis. -/
theorem C94_defined (hsq : IsSqrt sq) (big : K) (vs : List (V3 K)) (normal : V3 K) (o eps : K) (h0 : normal ≠ ⟨0, 0, 0⟩) :
    superTriangle sq big vs normal o eps = none ↔ NegativeAxis normal := by
  obtain ⟨n, hn⟩ := Option.ne_none_iff_exists'.mp (fun h => h0 ((normalize_none hsq normal).mp h))
  obtain ⟨l0, e1, e, n1⟩ := normalize_some hsq hn
  have hneg : NegativeAxis normal ↔ n = ⟨-1, 0, 0⟩ ∨ n = ⟨0, -1, 0⟩ ∨ n = ⟨0, 0, -1⟩ := by
    constructor
    · rintro ⟨c, hc, h⟩
      have hl : length sq normal = c := by
        have hd : dot normal normal = c * c := by rcases h with rfl | rfl | rfl <;> simp [dot]
        have hs := hsq (c * c) (mul_self_nonneg c)
        unfold length
        rw [hd]
        nlinarith [mul_self_eq_mul_self_iff.mp hs.2, (mul_self_inj hs.1 hc.le).mp hs.2]
      rw [hl] at e1
      rcases h with rfl | rfl | rfl
      · left; rw [e1]; simp [div3, hc.ne']
      · right; left; rw [e1]; simp [div3, hc.ne']
      · right; right; rw [e1]; simp [div3, hc.ne']
    · rintro h
      refine ⟨length sq normal, l0, ?_⟩
      generalize length sq normal = l at e
      rcases h with rfl | rfl | rfl
      · left; rw [e]; simp [mul3]
      · right; left; rw [e]; simp [mul3]
      · right; right; rw [e]; simp [mul3]
  rw [hneg, ← cross_helper_zero n1]
  obtain ⟨huv, hvv⟩ := frame n1 (cross n (helper n)) (dot_cross_left n (helper n))
  simp only [superTriangle, hn, Option.bind_some]
  generalize cross n (helper n) = u at huv hvv ⊢
  generalize cross n u = v at huv hvv ⊢
  have dp : dot (add3 u v) (add3 u v) = 2 * dot u u := by
    have : dot (add3 u v) (add3 u v) = dot u u + 2 * dot u v + dot v v := by simp only [dot, add3]; ring
    rw [this, huv, hvv]; ring
  have dm : dot (sub3 u v) (sub3 u v) = 2 * dot u u := by
    have : dot (sub3 u v) (sub3 u v) = dot u u - 2 * dot u v + dot v v := by simp only [dot, sub3]; ring
    rw [this, huv, hvv]; ring
  constructor
  · intro h
    by_contra hu
    have hpos : dot u u ≠ 0 := fun h => hu (dot_self_zero h)
    have zz : dot (⟨0, 0, 0⟩ : V3 K) ⟨0, 0, 0⟩ = 0 := by simp [dot]
    obtain ⟨p, hp⟩ := Option.ne_none_iff_exists'.mp (fun h => by
      rw [(normalize_none hsq (add3 u v)).mp h, zz] at dp; exact hpos (by linarith) : normalize sq (add3 u v) ≠ none)
    obtain ⟨q, hq⟩ := Option.ne_none_iff_exists'.mp (fun h => by
      rw [(normalize_none hsq (sub3 u v)).mp h, zz] at dm; exact hpos (by linarith) : normalize sq (sub3 u v) ≠ none)
    rw [hp, hq] at h
    simp only [Option.bind_some, Option.bind_eq_none_iff] at h
    have hl : length sq (add3 u v) = length sq (sub3 u v) := by unfold length; rw [dp, dm]
    have hsum : add3 p q = mul3 u (2 / length sq (sub3 u v)) := by
      have l := (normalize_some hsq hq).1.ne'
      rw [(normalize_some hsq hp).2.1, (normalize_some hsq hq).2.1, hl]
      simp only [add3, div3, mul3, sub3, V3.mk.injEq]
      refine ⟨?_, ?_, ?_⟩ <;> field_simp <;> ring
    cases hr : normalize sq (add3 p q) with
    | some r => exact absurd (h r hr) (by simp)
    | none =>
      have hz := (normalize_none hsq _).mp hr
      rw [hsum] at hz
      have l := (normalize_some hsq hq).1.ne'
      have l2 : 2 / length sq (sub3 u v) ≠ 0 := div_ne_zero two_ne_zero l
      simp only [mul3, V3.mk.injEq, mul_eq_zero, l2, or_false] at hz
      exact hu (by ext <;> simp [hz])
  · rintro rfl
    have : dot (⟨0, 0, 0⟩ : V3 K) ⟨0, 0, 0⟩ = 0 := by simp [dot]
    rw [this, mul_zero] at dp
    rw [(normalize_none hsq _).mpr (dot_self_zero dp)]
    rfl

/-- **C94 (negative axis).** For every normal along a negative axis, which is accepted, the code divides by zero, for every mesh. -/
theorem C94_axis_fails (hsq : IsSqrt sq) (big : K) (vs : List (V3 K)) (o eps c : K) (hc : 0 < c) :
    superTriangle sq big vs ⟨0, 0, -c⟩ o eps = none :=
  (C94_defined hsq big vs _ o eps (by simp [hc.ne'])).mpr ⟨c, hc, Or.inr (Or.inr rfl)⟩

/-- A box between the heights 1 and 2: the section with the normal (0, 0, 1) is computed, but does not cut it for any offset. -/
theorem C94_demo : ∃ vs : List (V3 ℝ), vs.length = 8 ∧ IsSqrt Real.sqrt ∧ ∀ o eps : ℝ, ∃ a b c, superTriangle Real.sqrt 10000000000 vs ⟨0, 0, 1⟩ o eps = some (a, b, c)
    ∧ ∀ p ∈ vs, 0 < dot (sub3 p a) ⟨0, 0, 1⟩ ∧ 0 < dot (sub3 p b) ⟨0, 0, 1⟩ ∧ 0 < dot (sub3 p c) (⟨0, 0, 1⟩ : V3 ℝ) := by
  have hsq : IsSqrt Real.sqrt := fun x hx => ⟨Real.sqrt_nonneg x, Real.mul_self_sqrt hx⟩
  refine ⟨[⟨0, 0, 1⟩, ⟨1, 0, 1⟩, ⟨1, 1, 1⟩, ⟨0, 1, 1⟩, ⟨0, 0, 2⟩, ⟨1, 0, 2⟩, ⟨1, 1, 2⟩, ⟨0, 1, 2⟩], rfl, hsq, fun o eps => ?_⟩
  obtain ⟨⟨a, b, c⟩, h⟩ := Option.ne_none_iff_exists'.mp (fun h => by
    obtain ⟨c, hc, h | h | h⟩ := (C94_defined hsq _ _ _ _ _ (by simp)).mp h
    · simp at h
    · simp at h
    · simp only [V3.mk.injEq, true_and] at h
      linarith : superTriangle Real.sqrt 10000000000 ([⟨0, 0, 1⟩, ⟨1, 0, 1⟩, ⟨1, 1, 1⟩, ⟨0, 1, 1⟩, ⟨0, 0, 2⟩, ⟨1, 0, 2⟩, ⟨1, 1, 2⟩, ⟨0, 1, 2⟩] : List (V3 ℝ)) ⟨0, 0, 1⟩ o eps ≠ none)
  refine ⟨a, b, c, h, C94_missed_fails hsq _ _ _ o eps a b c h ?_⟩
  simp [dot]

/-- A point of a triangle (specification). -/
def InTriangle (a b c x : V3 K) : Prop := ∃ i j k : K, 0 ≤ i ∧ 0 ≤ j ∧ 0 ≤ k ∧ i + j + k = 1 ∧ x = add3 (add3 (mul3 a i) (mul3 b j)) (mul3 c k)

/-- What the corners of the triangle are: two of them are in orthogonal directions from a point. -/
theorem corners (hsq : IsSqrt sq) {big : K} {vs : List (V3 K)} {normal : V3 K} {o eps : K} {a b c : V3 K}
    (h : superTriangle sq big vs normal o eps = some (a, b, c)) :
    ∃ n p q m d L, normalize sq normal = some n ∧ dot p p = 1 ∧ dot q q = 1 ∧ dot p q = 0 ∧ dot p n = 0 ∧ dot q n = 0 ∧ 0 < L ∧ L * L = 2
      ∧ m = sub3 (div3 (scan big n vs).mean (vs.length : K)) (mul3 n (dot (div3 (scan big n vs).mean (vs.length : K)) n))
      ∧ d = length sq (sub3 (scan big n vs).bboxMax (scan big n vs).bboxMin)
      ∧ a = add3 m (mul3 p (d * 2)) ∧ b = add3 m (mul3 q (d * 2)) ∧ c = sub3 m (mul3 (div3 (add3 p q) L) (d * 2)) := by
  obtain ⟨n, p, q, r, m, d, hn, hp, hq, hr, hm, hd, ha, hb, hc⟩ := superTriangle_some h
  obtain ⟨-, -, -, n1⟩ := normalize_some hsq hn
  obtain ⟨huv, hvv⟩ := frame n1 (cross n (helper n)) (dot_cross_left n (helper n))
  have hu := dot_cross_left n (helper n)
  have hv := dot_cross_left n (cross n (helper n))
  generalize cross n (helper n) = u at *
  generalize cross n u = v at *
  obtain ⟨-, ep, -, p1⟩ := normalize_some hsq hp
  obtain ⟨-, eq, -, q1⟩ := normalize_some hsq hq
  obtain ⟨r0, er, -, -⟩ := normalize_some hsq hr
  have pq : dot p q = 0 := by
    rw [ep, eq, dot_div, dot_comm, dot_div]
    have : dot (sub3 u v) (add3 u v) = dot u u - dot v v := by simp only [dot, sub3, add3]; ring
    rw [this, hvv, sub_self, zero_div, zero_div]
  have pn : dot p n = 0 := by rw [ep, dot_div, dot_add, hu, hv, add_zero, zero_div]
  have qn : dot q n = 0 := by rw [eq, dot_div, dot_sub, hu, hv, sub_zero, zero_div]
  refine ⟨n, p, q, m, d, length sq (add3 p q), hn, p1, q1, pq, pn, qn, r0, ?_, hm, hd, ha, hb, er ▸ hc⟩
  have : dot (add3 p q) (add3 p q) = dot p p + 2 * dot p q + dot q q := by simp only [dot, add3]; ring
  rw [p1, q1, pq] at this
  rw [length, (hsq _ (dot_self_nonneg _)).2, this]; ring

omit [LinearOrder K] [IsStrictOrderedRing K] in
/-- A vector orthogonal to a unit vector in the coordinates of two others. -/
theorem coordinates {n p q x : V3 K} (n1 : dot n n = 1) (p1 : dot p p = 1) (q1 : dot q q = 1) (pq : dot p q = 0) (pn : dot p n = 0) (qn : dot q n = 0) (xn : dot x n = 0) :
    x = add3 (mul3 p (dot x p)) (mul3 q (dot x q)) := by
  have hdet : dot n (cross p q) * dot n (cross p q) = 1 := by
    have : dot n (cross p q) * dot n (cross p q) = dot n n * (dot p p * dot q q - dot p q * dot p q) - dot p n * (dot p n * dot q q - dot p q * dot q n)
        + dot q n * (dot p n * dot p q - dot p p * dot q n) := by simp only [dot, cross]; ring
    rw [this, n1, p1, q1, pq, pn, qn]; ring
  have h0 : dot n (cross p q) ≠ 0 := fun h => by rw [h, mul_zero] at hdet; exact zero_ne_one hdet
  generalize hy : sub3 x (add3 (mul3 p (dot x p)) (mul3 q (dot x q))) = y
  have hyn : dot y n = 0 := by rw [← hy, dot_sub, dot_add, dot_mul, dot_mul, xn, pn, qn]; ring
  have hyp : dot y p = 0 := by rw [← hy, dot_sub, dot_add, dot_mul, dot_mul, p1, dot_comm q, pq]; ring
  have hyq : dot y q = 0 := by rw [← hy, dot_sub, dot_add, dot_mul, dot_mul, q1, pq]; ring
  have ex : y.x * dot n (cross p q) = dot y n * (cross p q).x + dot y p * (cross q n).x + dot y q * (cross n p).x := by simp only [dot, cross]; ring
  have ey : y.y * dot n (cross p q) = dot y n * (cross p q).y + dot y p * (cross q n).y + dot y q * (cross n p).y := by simp only [dot, cross]; ring
  have ez : y.z * dot n (cross p q) = dot y n * (cross p q).z + dot y p * (cross q n).z + dot y q * (cross n p).z := by simp only [dot, cross]; ring
  rw [hyn, hyp, hyq] at ex ey ez
  have x0 : y.x = 0 := (mul_eq_zero.mp (by linear_combination ex)).resolve_right h0
  have y0 : y.y = 0 := (mul_eq_zero.mp (by linear_combination ey)).resolve_right h0
  have z0 : y.z = 0 := (mul_eq_zero.mp (by linear_combination ez)).resolve_right h0
  rw [← hy] at x0 y0 z0
  ext
  · exact sub_eq_zero.mp x0
  · exact sub_eq_zero.mp y0
  · exact sub_eq_zero.mp z0

/-- **C94 (size).** If the box around the mesh is not a point, the triangle contains all points of its plane that are not further from the mean of the vertices, projected on the
plane, than 3/4 of the diagonal of the box. -/
theorem C94_size_partial (hsq : IsSqrt sq) (big : K) (vs : List (V3 K)) (normal : V3 K) (o eps : K) (a b c : V3 K)
    (h : superTriangle sq big vs normal o eps = some (a, b, c)) :
    ∃ n m d, normalize sq normal = some n
      ∧ m = sub3 (div3 (scan big n vs).mean (vs.length : K)) (mul3 n (dot (div3 (scan big n vs).mean (vs.length : K)) n))
      ∧ d = length sq (sub3 (scan big n vs).bboxMax (scan big n vs).bboxMin)
      ∧ (0 < d → ∀ x, dot x normal = 0 → dot (sub3 x m) (sub3 x m) ≤ (3 / 4 * d) * (3 / 4 * d) → InTriangle a b c x) := by
  obtain ⟨n, p, q, m, d, L, hn, p1, q1, pq, pn, qn, L0, L2, hm, hd, rfl, rfl, rfl⟩ := corners hsq h
  refine ⟨n, m, d, hn, hm, hd, fun d0 x hx hr => ?_⟩
  obtain ⟨l0, -, e, n1⟩ := normalize_some hsq hn
  have xn : dot x n = 0 := by
    rw [e, dot_comm, dot_mul, dot_comm] at hx
    exact (mul_eq_zero.mp hx).resolve_right l0.ne'
  have mn : dot m n = 0 := by rw [hm, dot_sub, dot_mul, n1, one_mul, sub_self]
  have hxm : dot (sub3 x m) n = 0 := by rw [dot_sub, xn, mn, sub_zero]
  have hc := coordinates n1 p1 q1 pq pn qn hxm
  generalize hs : dot (sub3 x m) p = s at hc
  generalize ht : dot (sub3 x m) q = t at hc
  have hst : s * s + t * t ≤ (3 / 4 * d) * (3 / 4 * d) := by
    refine le_trans (le_of_eq ?_) hr
    have : dot (sub3 x m) (sub3 x m) = dot (add3 (mul3 p s) (mul3 q t)) (sub3 x m) := by rw [← hc]
    rw [this, dot_add, dot_mul, dot_mul, dot_comm, hs, dot_comm q, ht]
  have L1 : 7 / 5 < L := by nlinarith
  have L3 : L < 3 / 2 := by nlinarith
  have hw : ∀ s t : K, s * s + t * t ≤ (3 / 4 * d) * (3 / 4 * d) → 0 ≤ s * (1 + L) - t + 2 * d := by
    intro s t h
    by_contra hcon
    push Not at hcon
    have hA : 2 * d < -(s * (1 + L) - t) := by linarith
    have h1 := mul_self_lt_mul_self (by linarith : 0 ≤ 2 * d) hA
    have h2 : (s * s + t * t) * (4 + 2 * L) = (s * (1 + L) - t) * (s * (1 + L) - t) + (s + t * (1 + L)) * (s + t * (1 + L)) := by
      linear_combination (-(s * s + t * t)) * L2
    have h3 := mul_self_nonneg (s + t * (1 + L))
    have h5 : (s * s + t * t) * (4 + 2 * L) ≤ (3 / 4 * d) * (3 / 4 * d) * 7 :=
      mul_le_mul h (by linarith) (by linarith) (mul_self_nonneg _)
    have h6 := mul_pos d0 d0
    linarith
  have hk : 0 ≤ 2 * d - s - t := by
    by_contra hcon
    push Not at hcon
    have h1 := mul_self_lt_mul_self (by linarith : 0 ≤ 2 * d) (by linarith : 2 * d < s + t)
    have h3 := mul_self_nonneg (s - t)
    have h6 := mul_pos d0 d0
    linarith
  have hi := hw s t hst
  have hj := hw t s (by linarith)
  have D0 : 0 < 2 * d * (1 + L) := mul_pos (by linarith) (by linarith)
  have D1 : 0 < 2 * d * (1 + L) * L := mul_pos D0 L0
  have hsum : (s * (1 + L) - t + 2 * d) / (2 * d * (1 + L) * L) + (t * (1 + L) - s + 2 * d) / (2 * d * (1 + L) * L) + (2 * d - s - t) / (2 * d * (1 + L)) = 1 := by
    rw [← mul_div_mul_right (2 * d - s - t) _ L0.ne', ← add_div, ← add_div, div_eq_one_iff_eq D1.ne']
    linear_combination (-2 * d) * L2
  have hS : 2 * d * ((s * (1 + L) - t + 2 * d) / (2 * d * (1 + L) * L) - (2 * d - s - t) / (2 * d * (1 + L)) / L) = s := by
    rw [div_div, ← sub_div, ← mul_div_assoc, div_eq_iff D1.ne']
    linear_combination (-2 * d * s) * L2
  have hT : 2 * d * ((t * (1 + L) - s + 2 * d) / (2 * d * (1 + L) * L) - (2 * d - s - t) / (2 * d * (1 + L)) / L) = t := by
    rw [div_div, ← sub_div, ← mul_div_assoc, div_eq_iff D1.ne']
    linear_combination (-2 * d * t) * L2
  refine ⟨_, _, _, div_nonneg hi D1.le, div_nonneg hj D1.le, div_nonneg hk D0.le, hsum, ?_⟩
  generalize (s * (1 + L) - t + 2 * d) / (2 * d * (1 + L) * L) = i at *
  generalize (t * (1 + L) - s + 2 * d) / (2 * d * (1 + L) * L) = j at *
  generalize (2 * d - s - t) / (2 * d * (1 + L)) = k at *
  have cx := congrArg V3.x hc
  have cy := congrArg V3.y hc
  have cz := congrArg V3.z hc
  simp only [add3, mul3, sub3, div3, div_eq_mul_inv] at cx cy cz hS hT ⊢
  ext
  · simp only
    linear_combination cx - m.x * hsum - p.x * hS - q.x * hT
  · simp only
    linear_combination cy - m.y * hsum - p.y * hS - q.y * hT
  · simp only
    linear_combination cz - m.z * hsum - p.z * hS - q.z * hT

/-- A mesh of which the section is wanted: a cone with an octagon at its base and a point far away (specification of `C94_small_fails`). -/
def cone : List (V3 ℝ) :=
  [⟨0, 1, 2⟩, ⟨0, 2, 1⟩, ⟨0, 2, -1⟩, ⟨0, 1, -2⟩, ⟨0, -1, -2⟩, ⟨0, -2, -1⟩, ⟨0, -2, 1⟩, ⟨0, -1, 2⟩, ⟨120, -50, 0⟩]

theorem cone_point (o eps : ℝ) (a b c : V3 ℝ) (h : superTriangle Real.sqrt 10000000000 cone ⟨0, 0, 1⟩ o eps = some (a, b, c)) :
    ∃ x ∈ cone, dot x ⟨0, 0, 1⟩ = 0 ∧ ¬ InTriangle a b c x := by
  have hsq : IsSqrt Real.sqrt := fun x hx => ⟨Real.sqrt_nonneg x, Real.mul_self_sqrt hx⟩
  refine ⟨⟨120, -50, 0⟩, by simp [cone], by simp [dot], ?_⟩
  obtain ⟨n, p, q, r, m, d, hn, hp, hq, hr, hm, hd, rfl, rfl, rfl⟩ := superTriangle_some h
  have en : n = ⟨0, 0, 1⟩ := by
    rw [(normalize_some hsq hn).2.1]
    simp [div3, length, dot]
  subst en
  have eh : helper (⟨0, 0, 1⟩ : V3 ℝ) = ⟨1, 0, 0⟩ := by simp [helper, maxComp, axis]
  rw [eh] at hp hq
  have s0 : 0 < Real.sqrt 2 := Real.sqrt_pos.mpr two_pos
  have s2 : Real.sqrt 2 * Real.sqrt 2 = 2 := Real.mul_self_sqrt (by norm_num)
  generalize hs : Real.sqrt 2 = s at s0 s2
  have ep : p = ⟨-1 / s, 1 / s, 0⟩ := by
    rw [(normalize_some hsq hp).2.1]
    simp [div3, length, dot, add3, cross, ← hs, one_add_one_eq_two]
  have eq : q = ⟨1 / s, 1 / s, 0⟩ := by
    rw [(normalize_some hsq hq).2.1]
    simp [div3, length, dot, sub3, cross, ← hs, one_add_one_eq_two]
  subst ep eq
  obtain ⟨l0, -, er, r1⟩ := normalize_some hsq hr
  generalize length Real.sqrt _ = l at l0 er
  obtain ⟨rx, ry, rz⟩ := r
  simp only [add3, mul3, V3.mk.injEq] at er
  have ex : rx = 0 := (mul_eq_zero.mp (er.1.symm.trans (by ring))).resolve_right l0.ne'
  have ez : rz = 0 := (mul_eq_zero.mp (er.2.2.symm.trans (by ring))).resolve_right l0.ne'
  subst ex ez
  have ry0 : 0 < ry := by
    have : 0 < ry * l := by rw [← er.2.1]; positivity
    exact pos_of_mul_pos_left this l0.le
  have ey : ry = 1 := by
    simp only [dot] at r1
    nlinarith
  subst ey
  have em : m = ⟨120 / 9, -50 / 9, 0⟩ := by
    rw [hm]
    norm_num [scan, scanStep, cone, add3, div3, sub3, mul3, dot]
  have ed : d = Real.sqrt 17120 := by
    rw [hd]
    norm_num [scan, scanStep, cone, add3, div3, sub3, mul3, dot, length]
  have d0 : 0 ≤ d := ed ▸ Real.sqrt_nonneg _
  have d1 : d * d = 17120 := by rw [ed]; exact Real.mul_self_sqrt (by norm_num)
  have d2 : d < 131 := by nlinarith
  subst em
  rintro ⟨i, j, k, hi, hj, hk, hs1, e⟩
  simp only [add3, mul3, sub3, V3.mk.injEq] at e
  obtain ⟨e1, e2, -⟩ := e
  have s1 : 7 / 5 < s := by nlinarith
  have hinv : 1 / s * s = 1 := one_div_mul_cancel s0.ne'
  rw [neg_div] at e1
  generalize 1 / s = w at *
  have w0 : 0 < w := by nlinarith
  have key : (s + 1) * 120 - -50 = (s + 1) * (120 / 9) - -50 / 9 + d * 2 * (j + k) - d * 2 * i * (1 + 2 * w) := by
    linear_combination (s + 1) * e1 - e2 + ((s + 1) * 120 / 9 + 50 / 9) * hs1 + d * 2 * (j - i) * hinv
  have h1 : 0 ≤ d * 2 * i * (1 + 2 * w) := by positivity
  have h2 : d * 2 * (j + k) ≤ d * 2 := by nlinarith
  linarith

/-- **C94 (too small).** The triangle need not contain the whole section: a vertex of this mesh is on the plane of the triangle, but not in the triangle. -/
theorem C94_small_fails (o eps : ℝ) : ∃ a b c, superTriangle Real.sqrt 10000000000 cone ⟨0, 0, 1⟩ o eps = some (a, b, c)
    ∧ dot a ⟨0, 0, 1⟩ = 0 ∧ dot b ⟨0, 0, 1⟩ = 0 ∧ dot c ⟨0, 0, 1⟩ = 0 ∧ ∃ x ∈ cone, dot x ⟨0, 0, 1⟩ = 0 ∧ ¬ InTriangle a b c x := by
  have hsq : IsSqrt Real.sqrt := fun x hx => ⟨Real.sqrt_nonneg x, Real.mul_self_sqrt hx⟩
  obtain ⟨⟨a, b, c⟩, h⟩ := Option.ne_none_iff_exists'.mp (fun h => by
    obtain ⟨c, hc, h | h | h⟩ := (C94_defined hsq _ _ _ _ _ (by simp)).mp h
    · simp at h
    · simp at h
    · simp only [V3.mk.injEq, true_and] at h
      linarith : superTriangle Real.sqrt 10000000000 cone ⟨0, 0, 1⟩ o eps ≠ none)
  obtain ⟨ha, hb, hc⟩ := C94_plane_partial hsq _ _ _ o eps a b c h
  exact ⟨a, b, c, h, ha, hb, hc, cone_point o eps a b c h⟩

end Mcut.PlanarSection
