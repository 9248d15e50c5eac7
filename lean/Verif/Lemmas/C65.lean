import Verif.Spec.C65
import Verif.Props.C62

/-! Lemmas for `Props/C65.lean`. -/
namespace Mcut.Geom
variable {K : Type*} [Field K] [LinearOrder K] [IsStrictOrderedRing K]

/-- Affine functions of one variable that are not negative on an interval, and of which no two vanish at the same point of it: exactly two of them vanish, one at each end. -/
theorem two_ends {n : Nat} (A B : Fin n → K) (t0 : K) (h0 : ∀ i, 0 ≤ A i + t0 * B i) (hneg : ∃ i, B i < 0) (hpos : ∃ i, 0 < B i)
    (P : ∀ t, (∀ j, 0 ≤ A j + t * B j) → ∀ i, B i ≠ 0 → A i + t * B i = 0 → ∀ j, j ≠ i → 0 < A j + t * B j) :
    ∃ t1 t2 i1 i2, t1 < t2 ∧ i1 ≠ i2 ∧ A i1 + t1 * B i1 = 0 ∧ A i2 + t2 * B i2 = 0 ∧ B i1 ≠ 0 ∧ B i2 ≠ 0 ∧
      (∀ t, (∀ j, 0 ≤ A j + t * B j) ↔ t1 ≤ t ∧ t ≤ t2) ∧
      ∀ i t, (∀ j, 0 ≤ A j + t * B j) → A i + t * B i = 0 → (i = i1 ∧ t = t1) ∨ (i = i2 ∧ t = t2) := by
  have up : ∀ (B : Fin n → K), (∀ i, 0 ≤ A i + t0 * B i) → (∃ i, B i < 0) → ∃ t i, t0 ≤ t ∧ (∀ j, 0 ≤ A j + t0 * B j + (t - t0) * B j) ∧ B i < 0 ∧
      A i + t0 * B i + (t - t0) * B i = 0 := by
    intro B h0 hneg
    obtain ⟨s, hs, hall, z, hz, hzn, hz0⟩ := first_zero ((List.finRange n).map (fun i => (A i + t0 * B i, B i)))
      (by intro x hx; obtain ⟨i, -, rfl⟩ := List.mem_map.1 hx; exact h0 i)
      (by obtain ⟨i, hi⟩ := hneg; exact ⟨_, List.mem_map.2 ⟨i, List.mem_finRange i, rfl⟩, hi⟩)
    obtain ⟨i, -, rfl⟩ := List.mem_map.1 hz
    refine ⟨t0 + s, i, by linarith, fun j => ?_, hzn, ?_⟩
    · have := hall _ (List.mem_map.2 ⟨j, List.mem_finRange j, rfl⟩)
      simpa using this
    · simpa using hz0
  obtain ⟨t2, i2, h02, hall2, hB2, hz2⟩ := up B h0 hneg
  have hall2' : ∀ j, 0 ≤ A j + t2 * B j := fun j => by have := hall2 j; linarith
  have hz2' : A i2 + t2 * B i2 = 0 := by linear_combination hz2
  -- the other end, with the direction reversed
  obtain ⟨s, hs, hall, z, hz, hzn, hz0⟩ := first_zero ((List.finRange n).map (fun i => (A i + t0 * B i, -B i)))
    (by intro x hx; obtain ⟨i, -, rfl⟩ := List.mem_map.1 hx; exact h0 i)
    (by obtain ⟨i, hi⟩ := hpos; exact ⟨_, List.mem_map.2 ⟨i, List.mem_finRange i, rfl⟩, by simpa using hi⟩)
  obtain ⟨i1, -, rfl⟩ := List.mem_map.1 hz
  simp only at hzn hz0
  have hB1 : 0 < B i1 := by linarith
  have hall1' : ∀ j, 0 ≤ A j + (t0 - s) * B j := fun j => by
    have := hall _ (List.mem_map.2 ⟨j, List.mem_finRange j, rfl⟩)
    simp only at this; linarith
  have hz1' : A i1 + (t0 - s) * B i1 = 0 := by linear_combination hz0
  have hne : i1 ≠ i2 := by rintro rfl; linarith
  have hlt : t0 - s < t2 := by
    rcases lt_or_eq_of_le (show t0 - s ≤ t2 by linarith) with h | h
    · exact h
    · have := P t2 hall2' i2 hB2.ne hz2' i1 hne
      rw [← h] at this; linarith
  have hS : ∀ t, (∀ j, 0 ≤ A j + t * B j) ↔ t0 - s ≤ t ∧ t ≤ t2 := by
    intro t
    constructor
    · intro h
      constructor
      · by_contra hc
        push Not at hc
        have := h i1
        have := mul_pos (sub_pos.2 hc) hB1
        linarith
      · by_contra hc
        push Not at hc
        have := h i2
        have := mul_neg_of_pos_of_neg (sub_pos.2 hc) hB2
        linarith
    · rintro ⟨h1, h2⟩ j
      by_contra hc
      push Not at hc
      have e1 := mul_nonneg (hall1' j) (sub_nonneg.2 h2)
      have e2 := mul_nonneg (hall2' j) (sub_nonneg.2 h1)
      have e3 := mul_neg_of_neg_of_pos hc (sub_pos.2 hlt)
      have : (A j + t * B j) * (t2 - (t0 - s)) = (A j + (t0 - s) * B j) * (t2 - t) + (A j + t2 * B j) * (t - (t0 - s)) := by ring
      linarith
  refine ⟨t0 - s, t2, i1, i2, hlt, hne, hz1', hz2', hB1.ne', hB2.ne, hS, ?_⟩
  intro i t ht hi
  obtain ⟨g1, g2⟩ := (hS t).1 ht
  rcases lt_trichotomy (B i) 0 with hB | hB | hB
  · right
    have htt : t = t2 := by
      by_contra hc
      have hlt := lt_of_le_of_ne g2 hc
      have := hall2' i
      have := mul_neg_of_pos_of_neg (sub_pos.2 hlt) hB
      linarith
    refine ⟨?_, htt⟩
    by_contra hc
    subst htt
    have := P t ht i2 hB2.ne hz2' i hc
    linarith
  · exfalso
    have h2 : A i + t2 * B i = 0 := by rw [hB] at hi ⊢; linear_combination hi
    have := P t2 hall2' i2 hB2.ne hz2' i (by rintro rfl; linarith)
    linarith
  · left
    have htt : t = t0 - s := by
      by_contra hc
      have hlt := lt_of_le_of_ne g1 (Ne.symm hc)
      have := hall1' i
      have := mul_pos (sub_pos.2 hlt) hB
      linarith
    refine ⟨?_, htt⟩
    by_contra hc
    rw [htt] at ht hi
    have := P _ ht i1 hB1.ne' hz1' i hc
    linarith

/-- A vector orthogonal to two vectors that are not parallel is a multiple of their cross product. -/
theorem along_cross {v n m : V3 K} (hd : cross n m ≠ ⟨0, 0, 0⟩) (h1 : dot v n = 0) (h2 : dot v m = 0) :
    ∃ t, v = ⟨t * (cross n m).x, t * (cross n m).y, t * (cross n m).z⟩ := by
  have hpos := dot_self_pos hd
  refine ⟨dot v (cross n m) / dot (cross n m) (cross n m), ?_⟩
  have key : ∀ k : V3 K, k = cross n m → dot v n = 0 → dot v m = 0 → cross v k = ⟨0, 0, 0⟩ := by
    rintro k rfl h1 h2
    unfold dot at h1 h2
    unfold cross
    ext <;> simp only
    · linear_combination n.x * h2 - m.x * h1
    · linear_combination n.y * h2 - m.y * h1
    · linear_combination n.z * h2 - m.z * h1
  have hc := key _ rfl h1 h2
  generalize cross n m = k at hc hpos
  unfold cross at hc
  simp only [V3.mk.injEq] at hc
  obtain ⟨c1, c2, c3⟩ := hc
  have hne : dot k k ≠ 0 := hpos.ne'
  ext <;> simp only <;> rw [eq_comm, div_mul_eq_mul_div, div_eq_iff hne] <;> unfold dot
  · linear_combination k.z * c2 - k.y * c3
  · linear_combination k.x * c3 - k.z * c1
  · linear_combination k.y * c1 - k.x * c2

/-- The planes of two triangles with a common point that do not lie in one plane are not parallel. -/
theorem normals_cross {a b c a' b' c' p : V3 K} (h : NotCollinear3 a b c) (h' : NotCollinear3 a' b' c')
    (hpl : ¬ (OnPlaneOf a b c a' ∧ OnPlaneOf a b c b' ∧ OnPlaneOf a b c c')) (hp : InTriangle a b c p) (hp' : InTriangle a' b' c' p) :
    cross (triNormal a b c) (triNormal a' b' c') ≠ ⟨0, 0, 0⟩ := by
  intro hc
  apply hpl
  have hpp := (plane_dot h).1 (inTriangle_plane hp)
  have hpp' := inTriangle_plane hp'
  have hall : ∀ x, OnPlaneOf a' b' c' x → OnPlaneOf a b c x := by
    intro x hx
    rw [plane_dot h]
    rw [plane_dot h'] at hx hpp'
    have hn' := dot_self_pos (triNormal_ne h')
    unfold cross at hc
    simp only [V3.mk.injEq] at hc
    obtain ⟨c1, c2, c3⟩ := hc
    have key : dot (sub3 x p) (triNormal a b c) * dot (triNormal a' b' c') (triNormal a' b' c') =
        dot (triNormal a b c) (triNormal a' b' c') * dot (sub3 x p) (triNormal a' b' c') := by
      unfold dot sub3
      simp only
      linear_combination ((x.x - p.x) * (triNormal a' b' c').y - (x.y - p.y) * (triNormal a' b' c').x) * c3
        - ((x.x - p.x) * (triNormal a' b' c').z - (x.z - p.z) * (triNormal a' b' c').x) * c2
        + ((x.y - p.y) * (triNormal a' b' c').z - (x.z - p.z) * (triNormal a' b' c').y) * c1
    have hz : dot (sub3 x p) (triNormal a' b' c') = 0 := by
      unfold dot sub3 at *; simp only; linear_combination hx - hpp'
    rw [hz, mul_zero] at key
    rcases mul_eq_zero.1 key with hk | hk
    · rw [← hpp]
      unfold dot sub3 at *; simp only at *; linear_combination hk
    · exact absurd hk hn'.ne'
  have mem : ∀ v ∈ [a', b', c'], OnPlaneOf a b c v := fun v hv => hall v (inTriangle_plane (vertex_inTriangle hv))
  exact ⟨mem a' (by simp), mem b' (by simp), mem c' (by simp)⟩

theorem triNormal_rot (a b c : V3 K) : triNormal a b c = triNormal b c a := by
  unfold triNormal cross sub3; ext <;> simp only <;> ring

theorem notCollinear_rot {a b c : V3 K} (h : NotCollinear3 a b c) : NotCollinear3 b c a := by
  refine ⟨?_, ?_⟩
  · rintro rfl; exact h.2 ⟨1, (lerp3_one _ _).symm⟩
  · rintro ⟨t, ht⟩
    have := bary_zero h (u := 1) (v := -(1 - t)) (w := -t) (by ring) (by
      have h1 := congrArg V3.x ht; have h2 := congrArg V3.y ht; have h3 := congrArg V3.z ht
      simp only [lerp3] at h1 h2 h3
      unfold bary; ext <;> simp only
      · linear_combination h1
      · linear_combination h2
      · linear_combination h3)
    exact one_ne_zero this.1

/-- A side that is not parallel to the common line does not lie in the other plane. -/
theorem side_off' {a b c d n : V3 K} {k u' v' w' : K} (h : NotCollinear3 a b c) (hs : u' + v' + w' = 0) (hd : d = bary a b c u' v' w') (hu : u' ≠ 0)
    (hdn : d = cross (triNormal a b c) n ∨ d = cross n (triNormal a b c)) : ¬ (dot b n = k ∧ dot c n = k) := by
  intro hh
  rcases hdn with hdn | hdn
  · exact side_off h hs hd hu hdn hh.1 hh.2
  · refine side_off (d := ⟨-d.x, -d.y, -d.z⟩) (u := -u') (v := -v') (w := -w') h (by linear_combination -hs) ?_ (by simpa using hu) ?_ hh.1 hh.2
    · rw [hd]; unfold bary; ext <;> simp only <;> ring
    · rw [hdn]; unfold cross; ext <;> simp only <;> ring

/-- The common line of the planes of two triangles, as seen from one of them: `X t` has the weights `u + t * x1`, ... in the triangle `a b c`. -/
structure Line (a b c a' b' c' : V3 K) (X : K → V3 K) (u v w x1 x2 x3 : K) : Prop where
  sum : u + v + w = 1
  dsum : x1 + x2 + x3 = 0
  eq : ∀ t, X t = bary a b c (u + t * x1) (v + t * x2) (w + t * x3)
  plane : ∀ t, OnPlaneOf a' b' c' (X t)
  all : ∀ x, OnPlaneOf a b c x → OnPlaneOf a' b' c' x → ∃ t, x = X t
  off : x1 ≠ 0 → ¬ (OnPlaneOf a' b' c' b ∧ OnPlaneOf a' b' c' c)

/-- One test: the side `b c`, opposite to `a`, against the other triangle, if it does not report a violation. -/
theorem side_test {a b c a' b' c' : V3 K} {l' : K} (hnc : NotCollinear3 a b c) (T' : Testable a' b' c' l') {X : K → V3 K} {u v w x1 x2 x3 : K}
    (L : Line a b c a' b' c' X u v w x1 x2 x3) {res : Option (TestResult K)} (hres : EdgeFace [a', b', c'] l' b c res) (hv : res ≠ some .violation) :
    (∀ t, 0 ≤ v + t * x2 → 0 ≤ w + t * x3 → InTriangle a' b' c' (X t) → u + t * x1 = 0 → x1 ≠ 0 →
      registered res = some (X t) ∧ StrictlyInside3 a' b' c' (X t) ∧ 0 < v + t * x2 ∧ 0 < w + t * x3) ∧
    ∀ y, registered res = some y → ∃ t, y = X t ∧ u + t * x1 = 0 ∧ 0 ≤ v + t * x2 ∧ 0 ≤ w + t * x3 ∧ StrictlyInside3 a' b' c' y := by
  have hsum : ∀ t, (u + t * x1) + (v + t * x2) + (w + t * x3) = 1 := fun t => by linear_combination L.sum + t * L.dsum
  constructor
  · intro t hv0 hw0 hin hu hx1
    obtain ⟨r, rfl, hp, hm, hviol⟩ := C62_triangle a' b' c' l' T'.proper T'.length T'.regular b c (L.off hx1) res hres
    have hseg : OnSeg3 b c (X t) := (onSeg_bc (a := a)).2 ⟨v + t * x2, w + t * x3, hv0, hw0, by have := hsum t; rw [hu] at this; linear_combination this,
      by rw [L.eq t, hu]⟩
    cases r with
    | miss => exact absurd hin (hm.1 rfl (X t) hseg)
    | violation => exact absurd rfl hv
    | point p =>
      obtain ⟨h1, h2, h3, h4⟩ := (hp p).1 rfl
      have hpx : p = X t := by
        by_contra hne
        -- both points are common to the segment and the plane
        refine hne (seg_plane_unique (n := triNormal a' b' c') (d := dot a' (triNormal a' b' c')) ?_ h3 ?_ hseg ?_)
        · rintro ⟨e1, _⟩; exact h1 ((plane_dot T'.proper).2 (by unfold OnPlane at e1; unfold dot at *; exact e1))
        · have := (plane_dot T'.proper).1 (inTriangle_plane ((inTriangle_iff T'.proper).2 (.inl h4))); unfold OnPlane dot at *; exact this
        · have := (plane_dot T'.proper).1 (L.plane t); unfold OnPlane dot at *; exact this
      subst hpx
      refine ⟨rfl, h4, lt_of_le_of_ne hv0 (fun h0 => h2 ?_), lt_of_le_of_ne hw0 (fun h0 => h1 ?_)⟩
      · have e : X t = c := by
          have hw1 : w + t * x3 = 1 := by have := hsum t; rw [hu, ← h0] at this; linear_combination this
          rw [L.eq t, hu, ← h0, hw1]; exact bary_c a b c
        rw [← e]; exact L.plane t
      · have e : X t = b := by
          have hw1 : v + t * x2 = 1 := by have := hsum t; rw [hu, ← h0] at this; linear_combination this
          rw [L.eq t, hu, ← h0, hw1]; exact bary_b a b c
        rw [← e]; exact L.plane t
  · intro y hy
    have hreg : res = some (.point y) := by
      unfold registered at hy
      split at hy
      · simp only [Option.some.injEq] at hy; subst hy; rfl
      · cases hy
    by_cases hpl : OnPlaneOf a' b' c' b ∧ OnPlaneOf a' b' c' c
    · have := C62_coplanar a' b' c' l' T'.proper T'.length T'.regular b c hpl.1 hpl.2 res hres
      by_cases hi : InTriangle a' b' c' b ∨ InTriangle a' b' c' c
      · rw [this.1 hi] at hreg; cases hreg
      · rw [this.2 (not_or.1 hi)] at hreg; cases hreg
    · obtain ⟨r, hr, hp, -, -⟩ := C62_triangle a' b' c' l' T'.proper T'.length T'.regular b c hpl res hres
      rw [hr] at hreg
      obtain ⟨h1, h2, h3, h4⟩ := (hp y).1 (Option.some.inj hreg)
      obtain ⟨s1, s2, g1, g2, g3, g4⟩ := (onSeg_bc (a := a)).1 h3
      have hyT : OnPlaneOf a b c y := inTriangle_plane ⟨0, s1, s2, le_rfl, g1, g2, by linear_combination g3, g4⟩
      obtain ⟨t, rfl⟩ := L.all y hyT (inTriangle_plane ((inTriangle_iff T'.proper).2 (.inl h4)))
      rw [L.eq t] at g4
      obtain ⟨e1, e2, e3⟩ := bary_inj hnc (hsum t) (by linear_combination g3) g4
      exact ⟨t, rfl, e1, by rw [e2]; exact g1, by rw [e3]; exact g2, h4⟩

theorem Line.rot {a b c a' b' c' : V3 K} {X : K → V3 K} {u v w x1 x2 x3 : K} (L : Line a b c a' b' c' X u v w x1 x2 x3)
    (off : x2 ≠ 0 → ¬ (OnPlaneOf a' b' c' c ∧ OnPlaneOf a' b' c' a)) (h : NotCollinear3 a b c) : Line b c a a' b' c' X v w u x2 x3 x1 :=
  ⟨by linear_combination L.sum, by linear_combination L.dsum, fun t => by rw [L.eq t, bary_rot], L.plane,
    fun x h1 h2 => L.all x (by rw [plane_dot h]; rw [plane_dot (notCollinear_rot h), ← triNormal_rot] at h1; rw [h1]; unfold triNormal dot cross sub3; simp only; ring) h2, off⟩

/-- In a list with exactly two entries that are something, these two remain. -/
theorem filterMap_none {α β : Type*} (f : α → Option β) (l : List α) (h : ∀ (i : Nat) x, l[i]? = some x → f x = none) : l.filterMap f = [] := by
  rw [List.filterMap_eq_nil_iff]
  intro x hx
  obtain ⟨i, hi⟩ := List.getElem?_of_mem hx
  exact h i x hi

theorem filterMap_one {α β : Type*} (f : α → Option β) (l : List α) (i : Nat) (p : β) (hi : (l[i]?).bind f = some p)
    (h : ∀ (k : Nat) x, l[k]? = some x → k ≠ i → f x = none) : l.filterMap f = [p] := by
  induction l generalizing i with
  | nil => simp at hi
  | cons a l ih =>
    cases i with
    | zero =>
      simp only [List.getElem?_cons_zero, Option.bind_some] at hi
      rw [List.filterMap_cons_some hi, filterMap_none f l (fun k x hk => h (k + 1) x (by simpa using hk) (by omega))]
    | succ i =>
      have := h 0 a rfl (by omega)
      rw [List.filterMap_cons_none this]
      exact ih i (by simpa using hi) (fun k x hk hne => h (k + 1) x (by simpa using hk) (by omega))

theorem filterMap_two {α β : Type*} (f : α → Option β) (l : List α) (i j : Nat) (p q : β) (hij : i < j) (hi : (l[i]?).bind f = some p)
    (hj : (l[j]?).bind f = some q) (h : ∀ (k : Nat) x, l[k]? = some x → k ≠ i → k ≠ j → f x = none) : l.filterMap f = [p, q] := by
  induction l generalizing i j with
  | nil => simp at hi
  | cons a l ih =>
    cases j with
    | zero => omega
    | succ j =>
      cases i with
      | zero =>
        simp only [List.getElem?_cons_zero, Option.bind_some] at hi
        rw [List.filterMap_cons_some hi, filterMap_one f l j q (by simpa using hj) (fun k x hk hne => h (k + 1) x (by simpa using hk) (by omega) (by omega))]
      | succ i =>
        have := h 0 a rfl (by omega) (by omega)
        rw [List.filterMap_cons_none this]
        exact ih i j (by omega) (by simpa using hi) (by simpa using hj) (fun k x hk h1 h2 => h (k + 1) x (by simpa using hk) (by omega) (by omega))

end Mcut.Geom
