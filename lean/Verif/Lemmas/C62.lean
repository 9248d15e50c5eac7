import Verif.Spec.C62
import Verif.Props.C43
import Verif.Props.C42

/-! Lemmas for `Props/C62.lean`. -/
namespace Mcut.Geom
variable {K : Type*} [Field K] [LinearOrder K] [IsStrictOrderedRing K]

/-- The point with the given weights. -/
def bary (a b c : V3 K) (u v w : K) : V3 K := ⟨u * a.x + v * b.x + w * c.x, u * a.y + v * b.y + w * c.y, u * a.z + v * b.z + w * c.z⟩

theorem bary_zero {a b c : V3 K} (h : NotCollinear3 a b c) {u v w : K} (hs : u + v + w = 0) (h0 : bary a b c u v w = ⟨0, 0, 0⟩) :
    u = 0 ∧ v = 0 ∧ w = 0 := by
  unfold bary at h0
  simp only [V3.mk.injEq] at h0
  obtain ⟨hx, hy, hz⟩ := h0
  have hw : w = 0 := by
    by_contra hw
    apply h.2
    refine ⟨-v / w, ?_⟩
    have hu : u = -v - w := by linear_combination hs
    subst hu
    have key : ∀ x y z : K, (-v - w) * x + v * y + w * z = 0 → z = x + -v / w * (y - x) := by
      intro x y z h
      field_simp
      linear_combination h
    apply V3.ext
    · exact key _ _ _ hx
    · exact key _ _ _ hy
    · exact key _ _ _ hz
  subst hw
  have hu : u = -v := by linear_combination hs
  subst hu
  have hv : v = 0 := by
    by_contra hv
    apply h.1
    have key : ∀ x y z : K, -v * x + v * y + 0 * z = 0 → x = y := by
      intro x y z h
      have : v * (y - x) = 0 := by linear_combination h
      rcases mul_eq_zero.1 this with h | h
      · exact absurd h hv
      · exact (sub_eq_zero.1 h).symm
    apply V3.ext
    · exact key _ _ _ hx
    · exact key _ _ _ hy
    · exact key _ _ _ hz
  subst hv
  simp

theorem bary_inj {a b c : V3 K} (h : NotCollinear3 a b c) {u v w u' v' w' : K} (hs : u + v + w = 1) (hs' : u' + v' + w' = 1)
    (he : bary a b c u v w = bary a b c u' v' w') : u = u' ∧ v = v' ∧ w = w' := by
  have := bary_zero h (u := u - u') (v := v - v') (w := w - w') (by linear_combination hs - hs') (by
    unfold bary at he ⊢
    simp only [V3.mk.injEq] at he ⊢
    obtain ⟨hx, hy, hz⟩ := he
    exact ⟨by linear_combination hx, by linear_combination hy, by linear_combination hz⟩)
  exact ⟨sub_eq_zero.1 this.1, sub_eq_zero.1 this.2.1, sub_eq_zero.1 this.2.2⟩

theorem onSeg_ab {a b c p : V3 K} : OnSeg3 a b p ↔ ∃ u v : K, 0 ≤ u ∧ 0 ≤ v ∧ u + v + 0 = 1 ∧ p = bary a b c u v 0 := by
  constructor
  · rintro ⟨t, h0, h1, rfl⟩
    exact ⟨1 - t, t, by linarith, h0, by ring, by unfold bary lerp3; ext <;> simp only <;> ring⟩
  · rintro ⟨u, v, h0, h1, hs, rfl⟩
    have hu : u = 1 - v := by linear_combination hs
    subst hu
    exact ⟨v, h1, by linarith, by unfold bary lerp3; ext <;> simp only <;> ring⟩

theorem bary_rot {a b c : V3 K} {u v w : K} : bary a b c u v w = bary b c a v w u := by
  unfold bary; ext <;> simp only <;> ring

theorem onSeg_bc {a b c p : V3 K} : OnSeg3 b c p ↔ ∃ u v : K, 0 ≤ u ∧ 0 ≤ v ∧ u + v + 0 = 1 ∧ p = bary a b c 0 u v := by
  rw [onSeg_ab (c := a)]
  simp only [bary_rot (a := a)]

theorem onSeg_ca {a b c p : V3 K} : OnSeg3 c a p ↔ ∃ u v : K, 0 ≤ u ∧ 0 ≤ v ∧ u + v + 0 = 1 ∧ p = bary a b c v 0 u := by
  rw [onSeg_ab (c := b)]
  simp only [bary_rot (a := a), bary_rot (a := b)]

/-- The closed triangle is the disjoint union of the open triangle and its sides. -/
theorem inTriangle_iff {a b c p : V3 K} (h : NotCollinear3 a b c) : InTriangle a b c p ↔ StrictlyInside3 a b c p ∨ OnSide a b c p := by
  constructor
  · rintro ⟨u, v, w, hu, hv, hw, hs, rfl⟩
    rcases hu.lt_or_eq with hu' | rfl
    · rcases hv.lt_or_eq with hv' | rfl
      · rcases hw.lt_or_eq with hw' | rfl
        · exact .inl ⟨h, u, v, w, hu', hv', hw', hs, rfl⟩
        · exact .inr (.inl ((onSeg_ab (c := c)).2 ⟨u, v, hu, hv, hs, rfl⟩))
      · exact .inr (.inr (.inr ((onSeg_ca (b := b)).2 ⟨w, u, hw, hu, by linear_combination hs, rfl⟩)))
    · exact .inr (.inr (.inl ((onSeg_bc (a := a)).2 ⟨v, w, hv, hw, by linear_combination hs, rfl⟩)))
  · rintro (⟨_, u, v, w, hu, hv, hw, hs, rfl⟩ | hsd | hsd | hsd)
    · exact ⟨u, v, w, hu.le, hv.le, hw.le, hs, rfl⟩
    · obtain ⟨u, v, hu, hv, hs, rfl⟩ := (onSeg_ab (c := c)).1 hsd
      exact ⟨u, v, 0, hu, hv, le_rfl, hs, rfl⟩
    · obtain ⟨u, v, hu, hv, hs, rfl⟩ := (onSeg_bc (a := a)).1 hsd
      exact ⟨0, u, v, le_rfl, hu, hv, by linear_combination hs, rfl⟩
    · obtain ⟨u, v, hu, hv, hs, rfl⟩ := (onSeg_ca (b := b)).1 hsd
      exact ⟨v, 0, u, hv, le_rfl, hu, by linear_combination hs, rfl⟩

theorem inside_not_side {a b c p : V3 K} (h : StrictlyInside3 a b c p) : ¬ OnSide a b c p := by
  obtain ⟨hn, u, v, w, hu, hv, hw, hs, hp⟩ := h
  change p = bary a b c u v w at hp
  rintro (hsd | hsd | hsd)
  · obtain ⟨u', v', hu', hv', hs', hp'⟩ := (onSeg_ab (c := c)).1 hsd
    have := bary_inj hn hs (by linear_combination hs') (hp.symm.trans hp')
    exact hw.ne' this.2.2
  · obtain ⟨u', v', hu', hv', hs', hp'⟩ := (onSeg_bc (a := a)).1 hsd
    have := bary_inj hn hs (by linear_combination hs') (hp.symm.trans hp')
    exact hu.ne' this.1
  · obtain ⟨u', v', hu', hv', hs', hp'⟩ := (onSeg_ca (b := b)).1 hsd
    have := bary_inj hn hs (by linear_combination hs') (hp.symm.trans hp')
    exact hv.ne' this.2.1

theorem bary_a (a b c : V3 K) : bary a b c 1 0 0 = a := by unfold bary; ext <;> simp
theorem bary_b (a b c : V3 K) : bary a b c 0 1 0 = b := by unfold bary; ext <;> simp
theorem bary_c (a b c : V3 K) : bary a b c 0 0 1 = c := by unfold bary; ext <;> simp

/-- A point on two sides is a vertex. -/
theorem two_sides {a b c p : V3 K} (h : NotCollinear3 a b c) :
    (OnSeg3 a b p → OnSeg3 b c p → p = b) ∧ (OnSeg3 b c p → OnSeg3 c a p → p = c) ∧ (OnSeg3 a b p → OnSeg3 c a p → p = a) := by
  refine ⟨fun h1 h2 => ?_, fun h1 h2 => ?_, fun h1 h2 => ?_⟩
  · obtain ⟨u, v, hu, hv, hs, hp⟩ := (onSeg_ab (c := c)).1 h1
    obtain ⟨u', v', hu', hv', hs', hp'⟩ := (onSeg_bc (a := a)).1 h2
    have := bary_inj h (by linear_combination hs) (by linear_combination hs') (hp.symm.trans hp')
    obtain ⟨h1, h2, h3⟩ := this
    subst h1 h3
    have : v = 1 := by linear_combination hs
    rw [hp, this, bary_b]
  · obtain ⟨u, v, hu, hv, hs, hp⟩ := (onSeg_bc (a := a)).1 h1
    obtain ⟨u', v', hu', hv', hs', hp'⟩ := (onSeg_ca (b := b)).1 h2
    have := bary_inj h (by linear_combination hs) (by linear_combination hs') (hp.symm.trans hp')
    obtain ⟨h1, h2, h3⟩ := this
    subst h2
    have : v = 1 := by linear_combination hs
    rw [hp, this, bary_c]
  · obtain ⟨u, v, hu, hv, hs, hp⟩ := (onSeg_ab (c := c)).1 h1
    obtain ⟨u', v', hu', hv', hs', hp'⟩ := (onSeg_ca (b := b)).1 h2
    have := bary_inj h (by linear_combination hs) (by linear_combination hs') (hp.symm.trans hp')
    obtain ⟨h1, h2, h3⟩ := this
    subst h2
    have : u = 1 := by linear_combination hs
    rw [hp, this, bary_a]

theorem edges_tri (a b c : V3 K) : edgesOf [a, b, c] = [(a, b), (b, c), (c, a)] := rfl

/-- The point-in-polygon test of the library on a proper triangle. -/
theorem pip_triangle {n : V3 K} {l : K} {m : Nat} {p a b c : V3 K} (g : Good3 n l m p [a, b, c]) (h : NotCollinear3 a b c) :
    (pointInPolygon3 n l m p [a, b, c] = .inside ↔ StrictlyInside3 a b c p) ∧
    (pointInPolygon3 n l m p [a, b, c] = .outside ↔ ¬ InTriangle a b c p) ∧
    (pointInPolygon3 n l m p [a, b, c] = .vertex ∨ pointInPolygon3 n l m p [a, b, c] = .edge ↔ OnSide a b c p) := by
  have hbd : OnBoundary (project n l m p) ([a, b, c].map (project n l m)) ↔ OnSide a b c p := by
    rw [boundary_project g, edges_tri]
    unfold OnSide
    simp
  have hve : pointInPolygon3 n l m p [a, b, c] = .vertex ∨ pointInPolygon3 n l m p [a, b, c] = .edge ↔ OnSide a b c p := by
    constructor
    · intro hh
      rw [← hbd]
      by_contra hn
      rcases C43_off_boundary hn with h1 | h1 <;> unfold pointInPolygon3 at hh <;> rw [h1] at hh <;> simp at hh
    · intro hs
      rw [C43_space_vertex g, C43_space_edge g]
      by_cases hm : p ∈ [a, b, c]
      · exact .inl hm
      · refine .inr ⟨hm, ?_⟩
        simp only [List.mem_cons, List.not_mem_nil, or_false, not_or] at hm
        obtain ⟨t1, t2, t3⟩ := two_sides (p := p) h
        rw [edges_tri]
        unfold howMany
        rcases hs with hs | hs | hs
        · have n2 : ¬ OnSeg3 b c p := fun h' => hm.2.1 (t1 hs h')
          have n3 : ¬ OnSeg3 c a p := fun h' => hm.1 (t3 hs h')
          simp [hs, n2, n3]
        · have n2 : ¬ OnSeg3 a b p := fun h' => hm.2.1 (t1 h' hs)
          have n3 : ¬ OnSeg3 c a p := fun h' => hm.2.2 (t2 hs h')
          simp [hs, n2, n3]
        · have n2 : ¬ OnSeg3 a b p := fun h' => hm.1 (t3 h' hs)
          have n3 : ¬ OnSeg3 b c p := fun h' => hm.2.2 (t2 h' hs)
          simp [hs, n2, n3]
  have hin : ¬ OnSide a b c p → (pointInPolygon3 n l m p [a, b, c] = .inside ↔ StrictlyInside3 a b c p) := by
    intro hs
    unfold pointInPolygon3
    rw [← hbd] at hs
    rw [show ([a, b, c].map (project n l m)) = [project n l m a, project n l m b, project n l m c] from rfl] at hs ⊢
    rw [C43_triangle hs, inside_project g (by simp) (by simp) (by simp)]
  have hin' : pointInPolygon3 n l m p [a, b, c] = .inside ↔ StrictlyInside3 a b c p := by
    by_cases hs : OnSide a b c p
    · refine ⟨fun hh => ?_, fun hh => absurd hs (inside_not_side hh)⟩
      rcases hve.2 hs with h1 | h1 <;> rw [h1] at hh <;> simp at hh
    · exact hin hs
  refine ⟨hin', ?_, hve⟩
  rw [inTriangle_iff h, ← hin', ← hve]
  cases pointInPolygon3 n l m p [a, b, c] <;> simp

theorem touches_iff {n : V3 K} {l : K} {m : Nat} {p a b c : V3 K} (g : Good3 n l m p [a, b, c]) (h : NotCollinear3 a b c) :
    touches (pointInPolygon3 n l m p [a, b, c]) = true ↔ InTriangle a b c p := by
  have := (pip_triangle g h).2.1
  unfold touches
  by_cases hi : InTriangle a b c p
  · simp only [hi, iff_true, bne_iff_ne, ne_eq]; intro hc; exact this.1 hc hi
  · simp only [hi, iff_false, bne_iff_ne, ne_eq, not_not]; exact this.2 hi

theorem planeCoefficients_tri (a b c : V3 K) : (planeCoefficients [a, b, c]).1 = triNormal a b c := by
  unfold planeCoefficients polygonNormal normalFrom triNormal
  simp only [normalFrom, add3, cross, sub3]
  ext <;> simp only <;> ring

theorem tri_good {a b c : V3 K} {l : K} (h : NotCollinear3 a b c) (hl : IsLength (planeCoefficients [a, b, c]).1 l)
    (hs : ¬ Singular (planeCoefficients [a, b, c]).1 (planeCoefficients [a, b, c]).2.2) : GoodFace [a, b, c] l := by
  have hne : (planeCoefficients [a, b, c]).1 ≠ ⟨0, 0, 0⟩ := by rw [planeCoefficients_tri]; exact triNormal_ne h
  refine ⟨by simp, h.1, ⟨_, hne, ?_⟩, hne, hl, hs⟩
  have key : ∀ v ∈ [a, b, c], SamePlane (planeCoefficients [a, b, c]).1 v a := by
    intro v hv
    rw [planeCoefficients_tri]
    simp only [List.mem_cons, List.not_mem_nil, or_false] at hv
    rcases hv with rfl | rfl | rfl <;> unfold SamePlane triNormal cross sub3 <;> simp only <;> ring
  intro v hv w hw
  have e1 := key v hv; have e2 := key w hw
  unfold SamePlane at *
  rw [e1, e2]

theorem tri_plane {a b c : V3 K} (h : NotCollinear3 a b c) (x : V3 K) :
    OnPlane (planeCoefficients [a, b, c]).1 (planeCoefficients [a, b, c]).2.1 x ↔ OnPlaneOf a b c x := by
  refine OnPlane_planeOf h (by simp) ?_ (by rw [planeCoefficients_tri]; exact triNormal_ne h) x
  intro v hv
  simp only [List.mem_cons, List.not_mem_nil, or_false] at hv
  rcases hv with rfl | rfl | rfl
  · exact ⟨0, 0, by ext <;> simp⟩
  · exact ⟨1, 0, by ext <;> simp⟩
  · exact ⟨0, 1, by ext <;> simp⟩

theorem tri_good3 {a b c p : V3 K} {l : K} (h : NotCollinear3 a b c) (hl : IsLength (planeCoefficients [a, b, c]).1 l)
    (hs : ¬ Singular (planeCoefficients [a, b, c]).1 (planeCoefficients [a, b, c]).2.2) (hp : OnPlaneOf a b c p) :
    Good3 (planeCoefficients [a, b, c]).1 l (planeCoefficients [a, b, c]).2.2 p [a, b, c] := by
  have g := tri_good h hl hs
  have hc := comp_largest g.area
  refine ⟨hl, hc.2, hc.1, hs, ?_⟩
  have hpl : ∀ v ∈ [a, b, c], OnPlaneOf a b c v := by
    intro v hv
    simp only [List.mem_cons, List.not_mem_nil, or_false] at hv
    rcases hv with rfl | rfl | rfl
    · exact ⟨0, 0, by ext <;> simp⟩
    · exact ⟨1, 0, by ext <;> simp⟩
    · exact ⟨0, 1, by ext <;> simp⟩
  intro v hv
  have e1 := (tri_plane h v).2 (hpl v hv)
  have e2 := (tri_plane h p).2 hp
  unfold OnPlane at e1 e2
  unfold SamePlane
  rw [e1, e2]

theorem inTriangle_plane {a b c p : V3 K} (h : InTriangle a b c p) : OnPlaneOf a b c p := by
  obtain ⟨u, v, w, _, _, _, hs, rfl⟩ := h
  have hu : u = 1 - v - w := by linear_combination hs
  subst hu
  exact ⟨v, w, by ext <;> simp only <;> ring⟩

theorem onSeg3_left (q r : V3 K) : OnSeg3 q r q := ⟨0, le_rfl, zero_le_one, (lerp3_zero q r).symm⟩
theorem onSeg3_right (q r : V3 K) : OnSeg3 q r r := ⟨1, zero_le_one, le_rfl, (lerp3_one q r).symm⟩

/-- A segment with one end off the plane meets it in at most one point. -/
theorem seg_plane_unique {n : V3 K} {d : K} {q r p p' : V3 K} (hq : ¬ (OnPlane n d q ∧ OnPlane n d r)) (h1 : OnSeg3 q r p) (h1' : OnPlane n d p)
    (h2 : OnSeg3 q r p') (h2' : OnPlane n d p') : p = p' := by
  obtain ⟨t, _, _, rfl⟩ := h1
  obtain ⟨s, _, _, rfl⟩ := h2
  rw [onPlane_iff, side_lerp3] at h1' h2'
  rw [onPlane_iff, onPlane_iff] at hq
  have : (t - s) * (side n d r - side n d q) = 0 := by linear_combination h1' - h2'
  rcases mul_eq_zero.1 this with h | h
  · rw [sub_eq_zero.1 h]
  · exfalso
    apply hq
    rw [h] at h1'
    have : side n d q = 0 := by linear_combination h1'
    exact ⟨this, by linear_combination h + this⟩

theorem vertex_inTriangle {a b c v : V3 K} (h : v ∈ [a, b, c]) : InTriangle a b c v := by
  simp only [List.mem_cons, List.not_mem_nil, or_false] at h
  rcases h with rfl | rfl | rfl
  · exact ⟨1, 0, 0, zero_le_one, le_rfl, le_rfl, by ring, (bary_a _ _ _).symm⟩
  · exact ⟨0, 1, 0, le_rfl, zero_le_one, le_rfl, by ring, (bary_b _ _ _).symm⟩
  · exact ⟨0, 0, 1, le_rfl, le_rfl, zero_le_one, by ring, (bary_c _ _ _).symm⟩

theorem side_inTriangle {a b c p : V3 K} {e : V3 K × V3 K} (he : e ∈ edgesOf [a, b, c]) (hp : OnSeg3 e.1 e.2 p) : InTriangle a b c p := by
  rw [edges_tri] at he
  simp only [List.mem_cons, List.not_mem_nil, or_false] at he
  rcases he with rfl | rfl | rfl
  · obtain ⟨u, v, hu, hv, hs, rfl⟩ := (onSeg_ab (c := c)).1 hp
    exact ⟨u, v, 0, hu, hv, le_rfl, hs, rfl⟩
  · obtain ⟨u, v, hu, hv, hs, rfl⟩ := (onSeg_bc (a := a)).1 hp
    exact ⟨0, u, v, le_rfl, hu, hv, by linear_combination hs, rfl⟩
  · obtain ⟨u, v, hu, hv, hs, rfl⟩ := (onSeg_ca (b := b)).1 hp
    exact ⟨v, 0, u, hv, le_rfl, hu, by linear_combination hs, rfl⟩

/-- Moving until the first of some quantities that decrease becomes zero. -/
theorem first_zero (l : List (K × K)) (h0 : ∀ x ∈ l, 0 ≤ x.1) (hneg : ∃ x ∈ l, x.2 < 0) :
    ∃ t, 0 ≤ t ∧ (∀ x ∈ l, 0 ≤ x.1 + t * x.2) ∧ ∃ x ∈ l, x.2 < 0 ∧ x.1 + t * x.2 = 0 := by
  obtain ⟨y, hy, hyn⟩ := hneg
  obtain ⟨z, hz, hmax⟩ := exists_max (fun x : K × K => x.1 / x.2) (l.filter (fun x => decide (x.2 < 0)))
    (List.ne_nil_of_mem (List.mem_filter.2 ⟨hy, by simpa using hyn⟩))
  obtain ⟨hzl, hzn⟩ := List.mem_filter.1 hz
  simp only [decide_eq_true_eq] at hzn
  have hzne : z.2 ≠ 0 := hzn.ne
  have ht : 0 ≤ -(z.1 / z.2) := by
    have := div_nonpos_of_nonneg_of_nonpos (h0 z hzl) hzn.le
    linarith
  refine ⟨-(z.1 / z.2), ht, fun x hx => ?_, z, hzl, hzn, by field_simp; ring⟩
  by_cases hxn : x.2 < 0
  · have hm := hmax x (List.mem_filter.2 ⟨hx, by simpa using hxn⟩)
    have : x.1 / x.2 * x.2 = x.1 := div_mul_cancel₀ _ hxn.ne
    have := mul_le_mul_of_nonpos_right hm hxn.le
    linarith
  · have := mul_nonneg ht (not_lt.1 hxn)
    have := h0 x hx
    linarith

/-- The direction `d` with weights `u v w` of sum zero. -/
theorem dir_weights {a b c d : V3 K} (h : NotCollinear3 a b c) (hd : dot d (triNormal a b c) = 0) :
    ∃ u v w : K, u + v + w = 0 ∧ d = bary a b c u v w := by
  have : OnPlaneOf a b c (add3 a d) := by
    rw [onPlaneOf_iff h, orient3d_side]
    unfold side add3 dot at *
    simp only
    linear_combination -hd
  obtain ⟨u, v, hx⟩ := this
  refine ⟨-u - v, u, v, by ring, ?_⟩
  unfold add3 at hx
  simp only [V3.mk.injEq] at hx
  obtain ⟨h1, h2, h3⟩ := hx
  unfold bary
  ext <;> simp only
  · linear_combination h1
  · linear_combination h2
  · linear_combination h3

/-- The side opposite to `a` is not parallel to a direction that changes the weight of `a`. -/
theorem side_off {a b c d n : V3 K} {k u v w : K} (h : NotCollinear3 a b c) (hs : u + v + w = 0) (hd : d = bary a b c u v w) (hu : u ≠ 0)
    (hdn : d = cross (triNormal a b c) n) (hb : dot b n = k) (hc : dot c n = k) : False := by
  -- `c - b` is perpendicular to both normals, so parallel to `d`
  have e1 : dot (sub3 c b) n = 0 := by unfold dot sub3 at *; simp only; linear_combination hc - hb
  have hdd : dot d (triNormal a b c) = 0 := by rw [hdn]; unfold dot cross; simp only; ring
  have e2 : dot (sub3 c b) (triNormal a b c) = 0 := by unfold triNormal dot sub3 cross; simp only; ring
  have hcr : cross (sub3 c b) d = ⟨0, 0, 0⟩ := by
    rw [hdn]
    unfold dot at e1 e2
    unfold cross at *
    ext <;> simp only
    · linear_combination (triNormal a b c).x * e1 - n.x * e2
    · linear_combination (triNormal a b c).y * e1 - n.y * e2
    · linear_combination (triNormal a b c).z * e1 - n.z * e2
  -- the weights of a multiple of `c - b`
  have hcd : cross (sub3 c b) d = ⟨u * (triNormal a b c).x, u * (triNormal a b c).y, u * (triNormal a b c).z⟩ := by
    have hw : w = -u - v := by linear_combination hs
    subst hw
    rw [hd]
    unfold bary triNormal cross sub3
    ext <;> simp only <;> ring
  have : triNormal a b c = ⟨0, 0, 0⟩ := by
    rw [hcr] at hcd
    simp only [V3.mk.injEq, zero_eq_mul, hu, false_or] at hcd
    exact V3.ext hcd.1 hcd.2.1 hcd.2.2
  exact triNormal_ne h this

/-- The part of the search along the common line that concerns one of the triangles: if a weight is zero at `x` and decreases in direction `d`, a
side of the triangle passes `x` and leaves the other plane. -/
theorem exit_side {a b c d n x : V3 K} {k u v w u' v' w' : K} (h : NotCollinear3 a b c) (hs : u + v + w = 1) (hs' : u' + v' + w' = 0)
    (hd : d = bary a b c u' v' w') (hdn : d = cross (triNormal a b c) n ∨ d = cross n (triNormal a b c)) (hx : x = bary a b c u v w)
    (h0 : 0 ≤ u ∧ 0 ≤ v ∧ 0 ≤ w) (hz : (u' < 0 ∧ u = 0) ∨ (v' < 0 ∧ v = 0) ∨ (w' < 0 ∧ w = 0)) :
    ∃ e ∈ edgesOf [a, b, c], OnSeg3 e.1 e.2 x ∧ ¬ (dot e.1 n = k ∧ dot e.2 n = k) := by
  -- up to the sign of the direction
  have off : ∀ {a b c : V3 K} {u' v' w' : K}, NotCollinear3 a b c → u' + v' + w' = 0 → d = bary a b c u' v' w' → u' ≠ 0 →
      (d = cross (triNormal a b c) n ∨ d = cross n (triNormal a b c)) → ¬ (dot b n = k ∧ dot c n = k) := by
    intro a b c u' v' w' h hs hd hu hdn hh
    rcases hdn with hdn | hdn
    · exact side_off h hs hd hu hdn hh.1 hh.2
    · refine side_off (d := ⟨-d.x, -d.y, -d.z⟩) (u := -u') (v := -v') (w := -w') h (by linear_combination -hs) ?_ (by simpa using hu) ?_ hh.1 hh.2
      · rw [hd]; unfold bary; ext <;> simp only <;> ring
      · rw [hdn]; unfold cross; ext <;> simp only <;> ring
  have rotN : ∀ a b c : V3 K, triNormal a b c = triNormal b c a := by
    intro a b c; unfold triNormal cross sub3; ext <;> simp only <;> ring
  have rotC : ∀ {a b c : V3 K}, NotCollinear3 a b c → NotCollinear3 b c a := by
    intro a b c h
    refine ⟨?_, ?_⟩
    · rintro rfl; exact h.2 ⟨1, (lerp3_one _ _).symm⟩
    · rintro ⟨t, ht⟩
      have := bary_zero h (u := 1) (v := -(1 - t)) (w := -t) (by ring) (by
        have h1 := congrArg V3.x ht; have h2 := congrArg V3.y ht; have h3 := congrArg V3.z ht
        simp only [lerp3] at h1 h2 h3
        unfold bary; ext <;> simp only
        · linear_combination h1
        · linear_combination h2
        · linear_combination h3)
      exact one_ne_zero this.1
  rw [edges_tri]
  rcases hz with ⟨h1, rfl⟩ | ⟨h1, rfl⟩ | ⟨h1, rfl⟩
  · exact ⟨(b, c), by simp, (onSeg_bc (a := a)).2 ⟨v, w, h0.2.1, h0.2.2, by linear_combination hs, hx⟩, off h hs' hd h1.ne hdn⟩
  · refine ⟨(c, a), by simp, (onSeg_ca (b := b)).2 ⟨w, u, h0.2.2, h0.1, by linear_combination hs, hx⟩, ?_⟩
    exact off (u' := v') (v' := w') (w' := u') (rotC h) (by linear_combination hs') (by rw [← bary_rot]; exact hd) h1.ne (by rw [← rotN]; exact hdn)
  · refine ⟨(a, b), by simp, (onSeg_ab (c := c)).2 ⟨u, v, h0.1, h0.2.1, by linear_combination hs, hx⟩, ?_⟩
    exact off (u' := w') (v' := u') (w' := v') (rotC (rotC h)) (by linear_combination hs') (by rw [← bary_rot, ← bary_rot]; exact hd) h1.ne (by rw [← rotN, ← rotN]; exact hdn)

theorem sum_zero_neg {u v w : K} (hs : u + v + w = 0) (hne : ¬ (u = 0 ∧ v = 0 ∧ w = 0)) : u < 0 ∨ v < 0 ∨ w < 0 := by
  by_contra hc
  push Not at hc
  apply hne
  refine ⟨?_, ?_, ?_⟩ <;> apply le_antisymm <;> linarith [hc.1, hc.2.1, hc.2.2]

theorem plane_dot {a b c x : V3 K} (h : NotCollinear3 a b c) : OnPlaneOf a b c x ↔ dot x (triNormal a b c) = dot a (triNormal a b c) := by
  rw [onPlaneOf_iff h, orient3d_side]
  unfold side
  constructor
  · intro hh; linear_combination -hh
  · intro hh; linear_combination -hh

/-- Two proper triangles in different planes with a common point: a side of one of them meets the other triangle, and does not lie in its plane. -/
theorem exit_point {a b c a' b' c' p : V3 K} (h : NotCollinear3 a b c) (h' : NotCollinear3 a' b' c')
    (hpl : ¬ (OnPlaneOf a b c a' ∧ OnPlaneOf a b c b' ∧ OnPlaneOf a b c c')) (hp : InTriangle a b c p) (hp' : InTriangle a' b' c' p) :
    (∃ e ∈ edgesOf [a, b, c], ∃ x, OnSeg3 e.1 e.2 x ∧ InTriangle a' b' c' x ∧ ¬ (OnPlaneOf a' b' c' e.1 ∧ OnPlaneOf a' b' c' e.2)) ∨
    (∃ e ∈ edgesOf [a', b', c'], ∃ x, OnSeg3 e.1 e.2 x ∧ InTriangle a b c x ∧ ¬ (OnPlaneOf a b c e.1 ∧ OnPlaneOf a b c e.2)) := by
  have hdne : cross (triNormal a b c) (triNormal a' b' c') ≠ ⟨0, 0, 0⟩ := by
    intro hc
    -- parallel planes through `p` coincide
    apply hpl
    have hpp := (plane_dot h).1 (inTriangle_plane hp)
    have hpp' := inTriangle_plane hp'
    have hall : ∀ x, OnPlaneOf a' b' c' x → OnPlaneOf a b c x := by
      intro x hx
      rw [plane_dot h]
      rw [plane_dot h'] at hx hpp'
      -- the normals are parallel
      have hn' := dot_self_pos (triNormal_ne h')
      unfold cross at hc
      simp only [V3.mk.injEq] at hc
      obtain ⟨c1, c2, c3⟩ := hc
      have key : dot (sub3 x p) (triNormal a b c) * dot (triNormal a' b' c') (triNormal a' b' c') =
          dot (triNormal a b c) (triNormal a' b' c') * dot (sub3 x p) (triNormal a' b' c') := by
        unfold dot sub3
        simp only
        linear_combination ((x.x - p.x) * (triNormal a' b' c').y - (x.y - p.y) * (triNormal a' b' c').x) * c3
          - ((x.x - p.x) * (triNormal a' b' c').z - (x.z - p.z) * (triNormal a' b' c').x) * c2
          + ((x.y - p.y) * (triNormal a' b' c').z - (x.z - p.z) * (triNormal a' b' c').y) * c1
      have hz : dot (sub3 x p) (triNormal a' b' c') = 0 := by
        unfold dot sub3 at *; simp only; linear_combination hx - hpp'
      rw [hz, mul_zero] at key
      rcases mul_eq_zero.1 key with hk | hk
      · rw [← hpp]
        unfold dot sub3 at *; simp only at *; linear_combination hk
      · exact absurd hk hn'.ne'
    have mem : ∀ v ∈ [a', b', c'], OnPlaneOf a b c v := fun v hv => hall v (inTriangle_plane (vertex_inTriangle hv))
    exact ⟨mem a' (by simp), mem b' (by simp), mem c' (by simp)⟩
  obtain ⟨u, v, w, hu, hv, hw, hs, hpe⟩ := hp
  obtain ⟨u', v', w', hu', hv', hw', hs', hpe'⟩ := hp'
  change p = bary a b c u v w at hpe
  change p = bary a' b' c' u' v' w' at hpe'
  generalize hdd : cross (triNormal a b c) (triNormal a' b' c') = d at hdne
  obtain ⟨x1, x2, x3, hxs, hxd⟩ := dir_weights (d := d) h (by rw [← hdd]; unfold dot cross; simp only; ring)
  obtain ⟨y1, y2, y3, hys, hyd⟩ := dir_weights (d := d) h' (by rw [← hdd]; unfold dot cross; simp only; ring)
  have hneg : x1 < 0 ∨ x2 < 0 ∨ x3 < 0 := by
    refine sum_zero_neg hxs ?_
    rintro ⟨rfl, rfl, rfl⟩
    apply hdne; rw [hxd]; unfold bary; simp
  obtain ⟨t, ht, hall, z, hz, hzn, hz0⟩ := first_zero [(u, x1), (v, x2), (w, x3), (u', y1), (v', y2), (w', y3)]
    (by
      intro x hx
      simp only [List.mem_cons, List.not_mem_nil, or_false] at hx
      rcases hx with rfl | rfl | rfl | rfl | rfl | rfl <;> assumption)
    (by
      rcases hneg with hh | hh | hh
      · exact ⟨(u, x1), by simp, hh⟩
      · exact ⟨(v, x2), by simp, hh⟩
      · exact ⟨(w, x3), by simp, hh⟩)
  have a1 := hall (u, x1) (by simp); have a2 := hall (v, x2) (by simp); have a3 := hall (w, x3) (by simp)
  have b1 := hall (u', y1) (by simp); have b2 := hall (v', y2) (by simp); have b3 := hall (w', y3) (by simp)
  simp only at a1 a2 a3 b1 b2 b3
  have e1 : add3 p ⟨t * d.x, t * d.y, t * d.z⟩ = bary a b c (u + t * x1) (v + t * x2) (w + t * x3) := by
    rw [hpe, hxd]; unfold add3 bary; ext <;> simp only <;> ring
  have e2 : add3 p ⟨t * d.x, t * d.y, t * d.z⟩ = bary a' b' c' (u' + t * y1) (v' + t * y2) (w' + t * y3) := by
    rw [hpe', hyd]; unfold add3 bary; ext <;> simp only <;> ring
  have i1 : InTriangle a b c (add3 p ⟨t * d.x, t * d.y, t * d.z⟩) :=
    ⟨_, _, _, a1, a2, a3, by linear_combination hs + t * hxs, e1⟩
  have i2 : InTriangle a' b' c' (add3 p ⟨t * d.x, t * d.y, t * d.z⟩) :=
    ⟨_, _, _, b1, b2, b3, by linear_combination hs' + t * hys, e2⟩
  have fin1 : ((x1 < 0 ∧ u + t * x1 = 0) ∨ (x2 < 0 ∧ v + t * x2 = 0) ∨ (x3 < 0 ∧ w + t * x3 = 0)) →
      ∃ e ∈ edgesOf [a, b, c], ∃ x, OnSeg3 e.1 e.2 x ∧ InTriangle a' b' c' x ∧ ¬ (OnPlaneOf a' b' c' e.1 ∧ OnPlaneOf a' b' c' e.2) := by
    intro hh
    obtain ⟨e, he, h1, h2⟩ := exit_side (n := triNormal a' b' c') (k := dot a' (triNormal a' b' c')) h
      (by linear_combination hs + t * hxs) hxs hxd (.inl hdd.symm) e1 ⟨a1, a2, a3⟩ hh
    exact ⟨e, he, _, h1, i2, by rw [plane_dot h', plane_dot h']; exact h2⟩
  have fin2 : ((y1 < 0 ∧ u' + t * y1 = 0) ∨ (y2 < 0 ∧ v' + t * y2 = 0) ∨ (y3 < 0 ∧ w' + t * y3 = 0)) →
      ∃ e ∈ edgesOf [a', b', c'], ∃ x, OnSeg3 e.1 e.2 x ∧ InTriangle a b c x ∧ ¬ (OnPlaneOf a b c e.1 ∧ OnPlaneOf a b c e.2) := by
    intro hh
    obtain ⟨e, he, h1, h2⟩ := exit_side (n := triNormal a b c) (k := dot a (triNormal a b c)) h'
      (by linear_combination hs' + t * hys) hys hyd (.inr hdd.symm) e2 ⟨b1, b2, b3⟩ hh
    exact ⟨e, he, _, h1, i1, by rw [plane_dot h, plane_dot h]; exact h2⟩
  simp only [List.mem_cons, List.not_mem_nil, or_false] at hz
  rcases hz with rfl | rfl | rfl | rfl | rfl | rfl
  · exact .inl (fin1 (.inl ⟨hzn, hz0⟩))
  · exact .inl (fin1 (.inr (.inl ⟨hzn, hz0⟩)))
  · exact .inl (fin1 (.inr (.inr ⟨hzn, hz0⟩)))
  · exact .inr (fin2 (.inl ⟨hzn, hz0⟩))
  · exact .inr (fin2 (.inr (.inl ⟨hzn, hz0⟩)))
  · exact .inr (fin2 (.inr (.inr ⟨hzn, hz0⟩)))

end Mcut.Geom
