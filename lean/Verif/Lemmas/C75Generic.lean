import Verif.Lemmas.C75Ray
import Mathlib.Algebra.Polynomial.Roots

/-! C75: directions that meet no side exist; points that no triangle surrounds. -/
namespace Mcut.Winding
open Mcut.Hmesh Mcut.Dispatch

/-- The family of directions. -/
def family (u v w : Vec) (t : ℝ) : Vec := ⟨u.x + t * v.x + t ^ 2 * w.x, u.y + t * v.y + t ^ 2 * w.y, u.z + t * v.z + t ^ 2 * w.z⟩

theorem quadratic_finite {p q r : ℝ} (h : ¬(p = 0 ∧ q = 0 ∧ r = 0)) : Set.Finite {t : ℝ | p + t * q + t ^ 2 * r = 0} := by
  have hne : (Polynomial.C p + Polynomial.X * Polynomial.C q + Polynomial.X ^ 2 * Polynomial.C r : Polynomial ℝ) ≠ 0 := by
    intro e
    apply h
    have c0 := congrArg (fun f => Polynomial.coeff f 0) e
    have c1 := congrArg (fun f => Polynomial.coeff f 1) e
    have c2 := congrArg (fun f => Polynomial.coeff f 2) e
    simp [Polynomial.coeff_C, Polynomial.coeff_X, Polynomial.coeff_X_pow] at c0 c1 c2
    exact ⟨c0, c1, c2⟩
  refine (Polynomial.finite_setOf_isRoot hne).subset ?_
  intro t ht
  simp only [Set.mem_setOf_eq, Polynomial.IsRoot] at ht ⊢
  simp
  linarith

theorem cramer (u v w a : Vec) : det u v w * a.x = det a v w * u.x + det u a w * v.x + det u v a * w.x ∧ det u v w * a.y = det a v w * u.y + det u a w * v.y + det u v a * w.y ∧
    det u v w * a.z = det a v w * u.z + det u a w * v.z + det u v a * w.z := by
  unfold det dot cross
  refine ⟨?_, ?_, ?_⟩ <;> ring

/-- For one side, only finitely many members of the family point at it. -/
theorem side_finite {u v w : Vec} (hD : det u v w ≠ 0) {a c : Vec} (h : ¬∃ α β : ℝ, 0 ≤ α ∧ 0 ≤ β ∧ α + β = 1 ∧ α * a.x + β * c.x = 0 ∧ α * a.y + β * c.y = 0 ∧ α * a.z + β * c.z = 0) :
    Set.Finite {t : ℝ | ∃ l α β : ℝ, 0 ≤ l ∧ 0 ≤ α ∧ 0 ≤ β ∧ α + β = 1 ∧ l * (family u v w t).x = α * a.x + β * c.x ∧ l * (family u v w t).y = α * a.y + β * c.y ∧
      l * (family u v w t).z = α * a.z + β * c.z} := by
  have pos : ∀ {t l α β : ℝ}, 0 ≤ l → 0 ≤ α → 0 ≤ β → α + β = 1 → l * (family u v w t).x = α * a.x + β * c.x → l * (family u v w t).y = α * a.y + β * c.y →
      l * (family u v w t).z = α * a.z + β * c.z → l ≠ 0 := by
    intro t l α β hl ha hb hs hx hy hz e
    subst e
    exact h ⟨α, β, ha, hb, hs, by linarith, by linarith, by linarith⟩
  by_cases hc : det u a c = 0 ∧ det v a c = 0 ∧ det w a c = 0
  · -- `a` and `c` are parallel
    obtain ⟨c1, c2, c3⟩ := hc
    have x0 : (cross a c).x = 0 ∧ (cross a c).y = 0 ∧ (cross a c).z = 0 := by
      have e : ∀ k : Vec, det k a c = dot k (cross a c) := fun _ => rfl
      rw [e] at c1 c2 c3
      generalize cross a c = z at c1 c2 c3
      have k1 : det u v w * z.x = 0 := by
        have : det u v w * z.x = dot u z * (v.y * w.z - v.z * w.y) + dot v z * (w.y * u.z - w.z * u.y) + dot w z * (u.y * v.z - u.z * v.y) := by unfold det dot cross; ring
        rw [this, c1, c2, c3]; ring
      have k2 : det u v w * z.y = 0 := by
        have : det u v w * z.y = dot u z * (v.z * w.x - v.x * w.z) + dot v z * (w.z * u.x - w.x * u.z) + dot w z * (u.z * v.x - u.x * v.z) := by unfold det dot cross; ring
        rw [this, c1, c2, c3]; ring
      have k3 : det u v w * z.z = 0 := by
        have : det u v w * z.z = dot u z * (v.x * w.y - v.y * w.x) + dot v z * (w.x * u.y - w.y * u.x) + dot w z * (u.x * v.y - u.y * v.x) := by unfold det dot cross; ring
        rw [this, c1, c2, c3]; ring
      exact ⟨(mul_eq_zero.1 k1).resolve_left hD, (mul_eq_zero.1 k2).resolve_left hD, (mul_eq_zero.1 k3).resolve_left hD⟩
    obtain ⟨x1, x2, x3⟩ := x0
    simp only [cross] at x1 x2 x3
    -- all such `t` satisfy `D (a2 - t a1) = 0` and `D (a3 - t² a1) = 0`
    have key : ∀ t, (∃ l α β : ℝ, 0 ≤ l ∧ 0 ≤ α ∧ 0 ≤ β ∧ α + β = 1 ∧ l * (family u v w t).x = α * a.x + β * c.x ∧ l * (family u v w t).y = α * a.y + β * c.y ∧
        l * (family u v w t).z = α * a.z + β * c.z) → det u a w = t * det a v w ∧ det u v a = t ^ 2 * det a v w := by
      rintro t ⟨l, α, β, hl, ha, hb, hs, hx, hy, hz⟩
      have l0 := pos hl ha hb hs hx hy hz
      have y1 : l * ((family u v w t).y * a.z - (family u v w t).z * a.y) = 0 := by linear_combination a.z * hy - a.y * hz - β * x1
      have y2 : l * ((family u v w t).z * a.x - (family u v w t).x * a.z) = 0 := by linear_combination a.x * hz - a.z * hx - β * x2
      have y3 : l * ((family u v w t).x * a.y - (family u v w t).y * a.x) = 0 := by linear_combination a.y * hx - a.x * hy - β * x3
      have z1 := (mul_eq_zero.1 y1).resolve_left l0
      have z2 := (mul_eq_zero.1 y2).resolve_left l0
      have z3 := (mul_eq_zero.1 y3).resolve_left l0
      simp only [family] at z1 z2 z3
      constructor
      · unfold det dot cross
        linear_combination w.x * z1 + w.y * z2 + w.z * z3
      · unfold det dot cross
        linear_combination (-v.x) * z1 - v.y * z2 - v.z * z3
    by_cases a1 : det a v w = 0
    · -- then there is none
      have : {t : ℝ | ∃ l α β : ℝ, 0 ≤ l ∧ 0 ≤ α ∧ 0 ≤ β ∧ α + β = 1 ∧ l * (family u v w t).x = α * a.x + β * c.x ∧ l * (family u v w t).y = α * a.y + β * c.y ∧
          l * (family u v w t).z = α * a.z + β * c.z} = ∅ := by
        rw [Set.eq_empty_iff_forall_notMem]
        intro t ht
        obtain ⟨k1, k2⟩ := key t ht
        rw [a1, mul_zero] at k1 k2
        obtain ⟨e1, e2, e3⟩ := cramer u v w a
        rw [a1, k1, k2] at e1 e2 e3
        have f1 := (mul_eq_zero.1 (show det u v w * a.x = 0 by rw [e1]; ring)).resolve_left hD
        have f2 := (mul_eq_zero.1 (show det u v w * a.y = 0 by rw [e2]; ring)).resolve_left hD
        have f3 := (mul_eq_zero.1 (show det u v w * a.z = 0 by rw [e3]; ring)).resolve_left hD
        exact h ⟨1, 0, by norm_num, by norm_num, by norm_num, by rw [f1]; ring, by rw [f2]; ring, by rw [f3]; ring⟩
      rw [this]
      exact Set.finite_empty
    · refine (Set.finite_singleton (det u a w / det a v w)).subset ?_
      intro t ht
      obtain ⟨k1, -⟩ := key t ht
      rw [Set.mem_singleton_iff, k1]
      field_simp
  · refine (quadratic_finite (p := det u a c) (q := det v a c) (r := det w a c) hc).subset ?_
    rintro t ⟨l, α, β, hl, ha, hb, hs, hx, hy, hz⟩
    have l0 := pos hl ha hb hs hx hy hz
    have : l * (det u a c + t * det v a c + t ^ 2 * det w a c) = 0 := by
      simp only [family] at hx hy hz
      unfold det dot cross
      linear_combination (a.y * c.z - a.z * c.y) * hx + (a.z * c.x - a.x * c.z) * hy + (a.x * c.y - a.y * c.x) * hz
    exact (mul_eq_zero.1 this).resolve_left l0

theorem seg_tri1 {a b c q : Vec} (h : InSegment a b q) : InTriangle a b c q := by
  obtain ⟨α, β, h1, h2, h3, rfl⟩ := h
  exact ⟨α, β, 0, h1, h2, le_refl _, by linarith, by ext <;> simp⟩
theorem seg_tri2 {a b c q : Vec} (h : InSegment b c q) : InTriangle a b c q := by
  obtain ⟨α, β, h1, h2, h3, rfl⟩ := h
  exact ⟨0, α, β, le_refl _, h1, h2, by linarith, by ext <;> simp⟩
theorem seg_tri3 {a b c q : Vec} (h : InSegment c a q) : InTriangle a b c q := by
  obtain ⟨α, β, h1, h2, h3, rfl⟩ := h
  exact ⟨β, 0, α, h2, le_refl _, h1, by linarith, by ext <;> simp <;> ring⟩

theorem seg_of_side {p : Nat → Vec} {ts : List (Nat × Nat × Nat)} {s : Nat × Nat} (hs : s ∈ sides ts) {q : Vec} (h : InSegment (p s.1) (p s.2) q) :
    ∃ t ∈ ts, InTriangle (p t.1) (p t.2.1) (p t.2.2) q := by
  unfold sides at hs
  obtain ⟨t, ht, hs⟩ := List.mem_flatMap.1 hs
  refine ⟨t, ht, ?_⟩
  simp only [List.mem_cons, List.not_mem_nil, or_false] at hs
  rcases hs with rfl | rfl | rfl
  · exact seg_tri1 h
  · exact seg_tri2 h
  · exact seg_tri3 h

/-- A generic direction exists in every such family. -/
theorem generic_exists {b : Body} {q : Vec} (h : ¬OnSurface b q) {u v w : Vec} (hD : det u v w ≠ 0) : ∃ t : ℝ, Generic b q (family u v w t) := by
  have off : ∀ s ∈ sides (triangles b), ¬InSegment (b.mesh.pos s.1) (b.mesh.pos s.2) q := by
    intro s hs e
    obtain ⟨t, ht, e⟩ := seg_of_side hs e
    exact turn_off h ht (zero3_of_tri e)
  have fin : Set.Finite (⋃ s ∈ {s | s ∈ sides (triangles b)}, {t : ℝ | ∃ l α β : ℝ, 0 ≤ l ∧ 0 ≤ α ∧ 0 ≤ β ∧ α + β = 1 ∧
      l * (family u v w t).x = α * (sub (b.mesh.pos s.1) q).x + β * (sub (b.mesh.pos s.2) q).x ∧ l * (family u v w t).y = α * (sub (b.mesh.pos s.1) q).y + β * (sub (b.mesh.pos s.2) q).y ∧
      l * (family u v w t).z = α * (sub (b.mesh.pos s.1) q).z + β * (sub (b.mesh.pos s.2) q).z}) := by
    refine Set.Finite.biUnion (List.finite_toSet _) ?_
    intro s hs
    apply side_finite hD
    rintro ⟨α, β, ha, hb, hs', hx, hy, hz⟩
    apply off s hs
    refine ⟨α, β, ha, hb, hs', ?_⟩
    simp only [sub] at hx hy hz
    ext
    · linear_combination (-1) * hx - q.x * hs'
    · linear_combination (-1) * hy - q.y * hs'
    · linear_combination (-1) * hz - q.z * hs'
  obtain ⟨t, ht⟩ := (Set.Infinite.exists_notMem_finite Set.infinite_univ fin : ∃ t ∈ (Set.univ : Set ℝ), _)
  refine ⟨t, ?_, ?_⟩
  · by_contra hn
    push Not at hn
    obtain ⟨n1, n2, n3⟩ := hn
    apply hD
    have : det (family u v w t) v w = det u v w := by unfold det dot cross family; ring
    rw [← this]
    unfold det dot
    rw [n1, n2, n3]; ring
  · intro s hs l hl e
    apply ht.2
    rw [Set.mem_iUnion₂]
    refine ⟨s, hs, ?_⟩
    obtain ⟨α, β, ha, hb, hs', e⟩ := e
    refine ⟨l, α, β, hl, ha, hb, hs', ?_, ?_, ?_⟩
    · have := congrArg Geom.V3.x e
      simp only [ray] at this
      simp only [sub]
      linear_combination this + q.x * hs'
    · have := congrArg Geom.V3.y e
      simp only [ray] at this
      simp only [sub]
      linear_combination this + q.y * hs'
    · have := congrArg Geom.V3.z e
      simp only [ray] at this
      simp only [sub]
      linear_combination this + q.z * hs'

/-- Unit vectors. -/
def ex : Vec := ⟨1, 0, 0⟩
def ey : Vec := ⟨0, 1, 0⟩
def ez : Vec := ⟨0, 0, 1⟩

theorem generic_some {b : Body} {q : Vec} (h : ¬OnSurface b q) : ∃ d, Generic b q d := by
  obtain ⟨t, ht⟩ := generic_exists h (u := ex) (v := ey) (w := ez) (by unfold det dot cross ex ey ez; norm_num)
  exact ⟨_, ht⟩

/-- The winding number with respect to a watertight mesh is an integer. -/
theorem winding_int {b : Body} (hp : Proper b) (hc : b.mesh.isClosed = true) {q : Vec} (h : ¬OnSurface b q) : ∃ k : ℤ, b.winding q = k := by
  obtain ⟨d, hd⟩ := generic_some h
  exact ⟨_, ray_count hp hc h hd⟩

theorem inside_iff {b : Body} (hp : Proper b) (hc : b.mesh.isClosed = true) {q : Vec} (h : ¬OnSurface b q) : Inside b q ↔ b.winding q = 1 := by
  constructor
  · rintro ⟨_, _, hi⟩
    obtain ⟨d, hd⟩ := generic_some h
    rw [ray_count hp hc h hd, hi d hd]; norm_num
  · intro e
    refine ⟨hc, h, fun d hd => ?_⟩
    rw [ray_count hp hc h hd] at e
    exact_mod_cast e

theorem isInside_iff {b : Body} (hp : Proper b) (hc : b.mesh.isClosed = true) {q : Vec} (h : ¬OnSurface b q) : isInside (b.winding q) = true ↔ Inside b q := by
  rw [inside_iff hp hc h]
  obtain ⟨k, hk⟩ := winding_int hp hc h
  unfold isInside
  rw [decide_eq_true_iff, hk]
  constructor
  · intro e
    have e1 : |((1 - k : ℤ) : ℝ)| < 1 := by push_cast; exact lt_trans e (by unfold eps; norm_num)
    rw [← Int.cast_abs] at e1
    have e2 : |1 - k| < 1 := by exact_mod_cast e1
    rw [Int.abs_lt_one_iff] at e2
    have : k = 1 := by omega
    rw [this]; norm_num
  · intro e
    rw [e]; unfold eps; norm_num

/-- A point all of the mesh lies on one side of. -/
theorem winding_outside {b : Body} (hp : Proper b) (hc : b.mesh.isClosed = true) {q : Vec} (h : ¬OnSurface b q) {n u v w : Vec} (hD : det u v w ≠ 0) (hu : dot n u < 0) (hv : dot n v = 0) (hw : dot n w = 0)
    (hs : ∀ t ∈ triangles b, 0 ≤ dot n (sub (b.mesh.pos t.1) q) ∧ 0 ≤ dot n (sub (b.mesh.pos t.2.1) q) ∧ 0 ≤ dot n (sub (b.mesh.pos t.2.2) q)) : b.winding q = 0 := by
  obtain ⟨t, ht⟩ := generic_exists h hD
  rw [ray_count hp hc h ht]
  have hd : dot n (family u v w t) < 0 := by
    have : dot n (family u v w t) = dot n u + t * dot n v + t ^ 2 * dot n w := by unfold dot family; ring
    rw [this, hv, hw]; linarith
  have z : ∀ r ∈ triangles b, crossing q (family u v w t) (b.mesh.pos r.1) (b.mesh.pos r.2.1) (b.mesh.pos r.2.2) = 0 := by
    intro r hr
    unfold crossing
    rw [if_neg]
    rintro ⟨l, hl, α, β, γ, h1, h2, h3, h4, e⟩
    obtain ⟨s1, s2, s3⟩ := hs r hr
    have ex := congrArg Geom.V3.x e
    have ey := congrArg Geom.V3.y e
    have ez := congrArg Geom.V3.z e
    simp only [ray] at ex ey ez
    have : l * dot n (family u v w t) = α * dot n (sub (b.mesh.pos r.1) q) + β * dot n (sub (b.mesh.pos r.2.1) q) + γ * dot n (sub (b.mesh.pos r.2.2) q) := by
      unfold dot sub
      linear_combination n.x * ex + n.y * ey + n.z * ez + (n.x * q.x + n.y * q.y + n.z * q.z) * h4
    have p := add_nonneg (add_nonneg (mul_nonneg h1 s1) (mul_nonneg h2 s2)) (mul_nonneg h3 s3)
    have l0 : l = 0 := by
      rcases hl.lt_or_eq with e' | e'
      · have := mul_pos e' (neg_pos.2 hd); linarith
      · exact e'.symm
    subst l0
    refine turn_off h hr (zero3_of_tri ⟨α, β, γ, h1, h2, h3, h4, ?_⟩)
    rw [← e]
    unfold ray
    ext <;> simp
  unfold crossings
  have : ((triangles b).map (fun r => crossing q (family u v w t) (b.mesh.pos r.1) (b.mesh.pos r.2.1) (b.mesh.pos r.2.2))) = (triangles b).map (fun _ => 0) := List.map_congr_left z
  rw [this]
  simp

end Mcut.Winding
