import Verif.Lemmas.C65
import Mathlib.Tactic.FinCases

/-!
# C65: the cut edge of two triangles is their intersection
-/
namespace Mcut.Geom
variable {K : Type*} [Field K] [LinearOrder K] [IsStrictOrderedRing K]

theorem onSeg3_swap {p q x : V3 K} : OnSeg3 p q x ↔ OnSeg3 q p x := by
  have key : ∀ {p q x : V3 K}, OnSeg3 p q x → OnSeg3 q p x := by
    rintro p q x ⟨t, h0, h1, rfl⟩
    exact ⟨1 - t, by linarith, by linarith, by unfold lerp3; ext <;> simp only <;> ring⟩
  exact ⟨key, key⟩

theorem inTriangle_weights {a b c : V3 K} (h : NotCollinear3 a b c) {u v w : K} (hs : u + v + w = 1) :
    InTriangle a b c (bary a b c u v w) ↔ 0 ≤ u ∧ 0 ≤ v ∧ 0 ≤ w := by
  constructor
  · rintro ⟨u', v', w', h1, h2, h3, h4, h5⟩
    obtain ⟨rfl, rfl, rfl⟩ := bary_inj h hs h4 h5
    exact ⟨h1, h2, h3⟩
  · rintro ⟨h1, h2, h3⟩; exact ⟨u, v, w, h1, h2, h3, hs, rfl⟩

theorem strictly_weights {a b c : V3 K} {u v w : K} (hs : u + v + w = 1) (h : StrictlyInside3 a b c (bary a b c u v w)) : 0 < u ∧ 0 < v ∧ 0 < w := by
  obtain ⟨hnc, u', v', w', h1, h2, h3, h4, h5⟩ := h
  obtain ⟨rfl, rfl, rfl⟩ := bary_inj hnc hs h4 h5
  exact ⟨h1, h2, h3⟩

/-- **C65.** Two triangles that do not lie in one plane, the results of the six tests of a side of one against the other, no violation of general position reported: either
no point is registered and the triangles are disjoint, or exactly two points are registered, they are different, and the segment between them — the cut edge that the
kernel creates — is exactly the intersection of the two triangles. -/
theorem C65_cut_edge (a b c a' b' c' : V3 K) (l l' : K) (T : Testable a b c l) (T' : Testable a' b' c' l')
    (hpl : ¬ (OnPlaneOf a b c a' ∧ OnPlaneOf a b c b' ∧ OnPlaneOf a b c c')) (rs rs' : List (Option (TestResult K)))
    (h : Tests [a', b', c'] l' (edgesOf [a, b, c]) rs) (h' : Tests [a, b, c] l (edgesOf [a', b', c']) rs') (hv : some .violation ∉ rs ++ rs') :
    (points (rs ++ rs') = [] ∧ ∀ x, ¬ (InTriangle a b c x ∧ InTriangle a' b' c' x)) ∨
    ∃ p q, points (rs ++ rs') = [p, q] ∧ p ≠ q ∧ ∀ x, (InTriangle a b c x ∧ InTriangle a' b' c' x) ↔ OnSeg3 p q x := by
  rw [edges_tri] at h h'
  unfold Tests at h h'
  obtain ⟨r1, t1, e1, k1, rfl⟩ := List.forall₂_cons_left_iff.1 h
  obtain ⟨r2, t2, e2, k2, rfl⟩ := List.forall₂_cons_left_iff.1 k1
  obtain ⟨r3, t3, e3, k3, rfl⟩ := List.forall₂_cons_left_iff.1 k2
  rw [List.forall₂_nil_left_iff] at k3
  subst k3
  obtain ⟨r4, t4, e4, k4, rfl⟩ := List.forall₂_cons_left_iff.1 h'
  obtain ⟨r5, t5, e5, k5, rfl⟩ := List.forall₂_cons_left_iff.1 k4
  obtain ⟨r6, t6, e6, k6, rfl⟩ := List.forall₂_cons_left_iff.1 k5
  rw [List.forall₂_nil_left_iff] at k6
  subst k6
  clear h h' k1 k2 k4 k5
  simp only at e1 e2 e3 e4 e5 e6
  simp only [List.cons_append, List.nil_append] at hv ⊢
  simp only [List.mem_cons, List.not_mem_nil, or_false, not_or] at hv
  obtain ⟨v1, v2, v3, v4, v5, v6⟩ := hv
  by_cases hex : ∃ p, InTriangle a b c p ∧ InTriangle a' b' c' p
  swap
  · left
    refine ⟨?_, fun x hx => hex ⟨x, hx⟩⟩
    have hno : ∀ {a b c a' b' c' : V3 K} {l' : K} (_ : Testable a' b' c' l') {q r : V3 K} {res : Option (TestResult K)}
        (_ : EdgeFace [a', b', c'] l' q r res) (_ : ∀ x, OnSeg3 q r x → InTriangle a b c x) (_ : ¬ ∃ p, InTriangle a b c p ∧ InTriangle a' b' c' p),
        registered res = none := by
      intro a b c a' b' c' l' T' q r res hres hin hno
      cases hr : registered res with
      | none => rfl
      | some y =>
        exfalso
        have hreg : res = some (.point y) := by
          unfold registered at hr
          split at hr
          · simp only [Option.some.injEq] at hr; subst hr; rfl
          · cases hr
        by_cases hc : OnPlaneOf a' b' c' q ∧ OnPlaneOf a' b' c' r
        · have := C62_coplanar a' b' c' l' T'.proper T'.length T'.regular q r hc.1 hc.2 res hres
          by_cases hi : InTriangle a' b' c' q ∨ InTriangle a' b' c' r
          · rw [this.1 hi] at hreg; cases hreg
          · rw [this.2 (not_or.1 hi)] at hreg; cases hreg
        · obtain ⟨r0, hr0, hp, -, -⟩ := C62_triangle a' b' c' l' T'.proper T'.length T'.regular q r hc res hres
          rw [hr0] at hreg
          obtain ⟨-, -, h3, h4⟩ := (hp y).1 (Option.some.inj hreg)
          exact hno ⟨y, hin y h3, (inTriangle_iff T'.proper).2 (.inl h4)⟩
    have hsd : ∀ (a b c : V3 K) (e : V3 K × V3 K), e ∈ [(a, b), (b, c), (c, a)] → ∀ x, OnSeg3 e.1 e.2 x → InTriangle a b c x :=
      fun a b c e he x hx => side_inTriangle (by rw [edges_tri]; exact he) hx
    have hex' : ¬ ∃ p, InTriangle a' b' c' p ∧ InTriangle a b c p := fun ⟨p, h1, h2⟩ => hex ⟨p, h2, h1⟩
    unfold points
    rw [List.filterMap_cons_none (hno T' e1 (hsd a b c (a, b) (by simp)) hex), List.filterMap_cons_none (hno T' e2 (hsd a b c (b, c) (by simp)) hex),
      List.filterMap_cons_none (hno T' e3 (hsd a b c (c, a) (by simp)) hex), List.filterMap_cons_none (hno T e4 (hsd a' b' c' (a', b') (by simp)) hex'),
      List.filterMap_cons_none (hno T e5 (hsd a' b' c' (b', c') (by simp)) hex'), List.filterMap_cons_none (hno T e6 (hsd a' b' c' (c', a') (by simp)) hex')]
    rfl
  right
  obtain ⟨p, hp, hp'⟩ := hex
  have hnc := T.proper; have hnc' := T'.proper
  have hdne := normals_cross hnc hnc' hpl hp hp'
  have hplane := inTriangle_plane hp; have hplane' := inTriangle_plane hp'
  obtain ⟨u, v, w, hu, hv, hw, hs, hpe⟩ := hp
  obtain ⟨u', v', w', hu', hv', hw', hs', hpe'⟩ := hp'
  change p = bary a b c u v w at hpe
  change p = bary a' b' c' u' v' w' at hpe'
  have hlin := fun (v : V3 K) => along_cross (v := v) hdne
  generalize hdd : cross (triNormal a b c) (triNormal a' b' c') = d at hdne hlin
  obtain ⟨x1, x2, x3, hxs, hxd⟩ := dir_weights (d := d) hnc (by rw [← hdd]; unfold dot cross; simp only; ring)
  obtain ⟨y1, y2, y3, hys, hyd⟩ := dir_weights (d := d) hnc' (by rw [← hdd]; unfold dot cross; simp only; ring)
  -- the common line
  obtain ⟨X, hX⟩ : ∃ X : K → V3 K, ∀ t, X t = add3 p ⟨t * d.x, t * d.y, t * d.z⟩ := ⟨_, fun _ => rfl⟩
  have eX : ∀ t, X t = bary a b c (u + t * x1) (v + t * x2) (w + t * x3) := by
    intro t; rw [hX, hpe, hxd]; unfold add3 bary; ext <;> simp only <;> ring
  have eX' : ∀ t, X t = bary a' b' c' (u' + t * y1) (v' + t * y2) (w' + t * y3) := by
    intro t; rw [hX, hpe', hyd]; unfold add3 bary; ext <;> simp only <;> ring
  have sX : ∀ t, (u + t * x1) + (v + t * x2) + (w + t * x3) = 1 := fun t => by linear_combination hs + t * hxs
  have sX' : ∀ t, (u' + t * y1) + (v' + t * y2) + (w' + t * y3) = 1 := fun t => by linear_combination hs' + t * hys
  have hall : ∀ x, OnPlaneOf a b c x → OnPlaneOf a' b' c' x → ∃ t, x = X t := by
    intro x h1 h2
    rw [plane_dot hnc] at h1 hplane
    rw [plane_dot hnc'] at h2 hplane'
    obtain ⟨t, ht⟩ := hlin (sub3 x p) (by unfold dot sub3 at *; simp only; linear_combination h1 - hplane)
      (by unfold dot sub3 at *; simp only; linear_combination h2 - hplane')
    refine ⟨t, ?_⟩
    rw [hX]
    unfold sub3 at ht
    simp only [V3.mk.injEq] at ht
    unfold add3
    ext <;> simp only
    · linear_combination ht.1
    · linear_combination ht.2.1
    · linear_combination ht.2.2
  have planeX : ∀ t, OnPlaneOf a b c (X t) := by
    intro t; rw [plane_dot hnc] at hplane ⊢
    rw [hX, ← hdd]; unfold dot add3 cross at *; simp only; linear_combination hplane
  have planeX' : ∀ t, OnPlaneOf a' b' c' (X t) := by
    intro t; rw [plane_dot hnc'] at hplane' ⊢
    rw [hX, ← hdd]; unfold dot add3 cross at *; simp only; linear_combination hplane'
  have off1 : ∀ {a b c : V3 K} {x1 x2 x3 : K}, NotCollinear3 a b c → x1 + x2 + x3 = 0 → d = bary a b c x1 x2 x3 → x1 ≠ 0 →
      d = cross (triNormal a b c) (triNormal a' b' c') → ¬ (OnPlaneOf a' b' c' b ∧ OnPlaneOf a' b' c' c) := by
    intro a b c x1 x2 x3 hn hs hd hx hdn
    rw [plane_dot hnc', plane_dot hnc']
    exact side_off' hn hs hd hx (.inl hdn)
  have off2 : ∀ {a' b' c' : V3 K} {x1 x2 x3 : K}, NotCollinear3 a' b' c' → x1 + x2 + x3 = 0 → d = bary a' b' c' x1 x2 x3 → x1 ≠ 0 →
      d = cross (triNormal a b c) (triNormal a' b' c') → ¬ (OnPlaneOf a b c b' ∧ OnPlaneOf a b c c') := by
    intro a' b' c' x1 x2 x3 hn hs hd hx hdn
    rw [plane_dot hnc, plane_dot hnc]
    exact side_off' hn hs hd hx (.inr hdn)
  have L1 : Line a b c a' b' c' X u v w x1 x2 x3 := ⟨hs, hxs, eX, planeX', hall, fun hx => off1 hnc hxs hxd hx hdd.symm⟩
  have L2 : Line b c a a' b' c' X v w u x2 x3 x1 := L1.rot (fun hx => off1 (x1 := x2) (x2 := x3) (x3 := x1) (notCollinear_rot hnc) (by linear_combination hxs) (by rw [← bary_rot]; exact hxd) hx
    (by rw [← triNormal_rot]; exact hdd.symm)) hnc
  have L3 : Line c a b a' b' c' X w u v x3 x1 x2 := L2.rot (fun hx => off1 (x1 := x3) (x2 := x1) (x3 := x2) (notCollinear_rot (notCollinear_rot hnc)) (by linear_combination hxs)
    (by rw [← bary_rot, ← bary_rot]; exact hxd) hx (by rw [← triNormal_rot, ← triNormal_rot]; exact hdd.symm)) (notCollinear_rot hnc)
  have L4 : Line a' b' c' a b c X u' v' w' y1 y2 y3 := ⟨hs', hys, eX', planeX, fun x h1 h2 => hall x h2 h1, fun hx => off2 hnc' hys hyd hx hdd.symm⟩
  have L5 : Line b' c' a' a b c X v' w' u' y2 y3 y1 := L4.rot (fun hx => off2 (x1 := y2) (x2 := y3) (x3 := y1) (notCollinear_rot hnc') (by linear_combination hys) (by rw [← bary_rot]; exact hyd) hx
    (by rw [← triNormal_rot a' b' c']; exact hdd.symm)) hnc'
  have L6 : Line c' a' b' a b c X w' u' v' y3 y1 y2 := L5.rot (fun hx => off2 (x1 := y3) (x2 := y1) (x3 := y2) (notCollinear_rot (notCollinear_rot hnc')) (by linear_combination hys)
    (by rw [← bary_rot, ← bary_rot]; exact hyd) hx (by rw [← triNormal_rot b' c' a', ← triNormal_rot a' b' c']; exact hdd.symm)) (notCollinear_rot hnc')
  have s1 := side_test (notCollinear_rot (notCollinear_rot hnc)) T' L3 e1 (fun h => v1 h.symm)
  have s2 := side_test hnc T' L1 e2 (fun h => v2 h.symm)
  have s3 := side_test (notCollinear_rot hnc) T' L2 e3 (fun h => v3 h.symm)
  have s4 := side_test (notCollinear_rot (notCollinear_rot hnc')) T L6 e4 (fun h => v4 h.symm)
  have s5 := side_test hnc' T L4 e5 (fun h => v5 h.symm)
  have s6 := side_test (notCollinear_rot hnc') T L5 e6 (fun h => v6 h.symm)
  -- the weights in the order of the tests
  obtain ⟨A, hA⟩ : ∃ A : Fin 6 → K, A = ![w, u, v, w', u', v'] := ⟨_, rfl⟩
  obtain ⟨B, hB⟩ : ∃ B : Fin 6 → K, B = ![x3, x1, x2, y3, y1, y2] := ⟨_, rfl⟩
  have all6 : ∀ t, (∀ j, 0 ≤ A j + t * B j) ↔ (0 ≤ u + t * x1 ∧ 0 ≤ v + t * x2 ∧ 0 ≤ w + t * x3) ∧ (0 ≤ u' + t * y1 ∧ 0 ≤ v' + t * y2 ∧ 0 ≤ w' + t * y3) := by
    intro t; subst hA hB; simp [Fin.forall_fin_succ]; tauto
  have inT : ∀ t, InTriangle a b c (X t) ↔ 0 ≤ u + t * x1 ∧ 0 ≤ v + t * x2 ∧ 0 ≤ w + t * x3 := fun t => by rw [eX t]; exact inTriangle_weights hnc (sX t)
  have inT' : ∀ t, InTriangle a' b' c' (X t) ↔ 0 ≤ u' + t * y1 ∧ 0 ≤ v' + t * y2 ∧ 0 ≤ w' + t * y3 := fun t => by
    rw [eX' t]; exact inTriangle_weights hnc' (sX' t)
  have both : ∀ t, (∀ j, 0 ≤ A j + t * B j) ↔ InTriangle a b c (X t) ∧ InTriangle a' b' c' (X t) := fun t => by rw [all6, inT, inT']
  have strT : ∀ t, StrictlyInside3 a b c (X t) → 0 < u + t * x1 ∧ 0 < v + t * x2 ∧ 0 < w + t * x3 := fun t h => by
    rw [eX t] at h; exact strictly_weights (sX t) h
  have strT' : ∀ t, StrictlyInside3 a' b' c' (X t) → 0 < u' + t * y1 ∧ 0 < v' + t * y2 ∧ 0 < w' + t * y3 := fun t h => by
    rw [eX' t] at h; exact strictly_weights (sX' t) h
  obtain ⟨Rs, hRs⟩ : ∃ Rs : Fin 6 → Option (TestResult K), Rs = ![r1, r2, r3, r4, r5, r6] := ⟨_, rfl⟩
  -- what the tests say
  have hit : ∀ t, (∀ j, 0 ≤ A j + t * B j) → ∀ i, B i ≠ 0 → A i + t * B i = 0 → registered (Rs i) = some (X t) ∧ ∀ j, j ≠ i → 0 < A j + t * B j := by
    intro t ht
    have hb := (both t).1 ht
    obtain ⟨⟨a1, a2, a3⟩, b1, b2, b3⟩ := (all6 t).1 ht
    subst hA hB hRs
    have g1 := fun h0 hx => s1.1 t a1 a2 hb.2 h0 hx
    have g2 := fun h0 hx => s2.1 t a2 a3 hb.2 h0 hx
    have g3 := fun h0 hx => s3.1 t a3 a1 hb.2 h0 hx
    have g4 := fun h0 hx => s4.1 t b1 b2 hb.1 h0 hx
    have g5 := fun h0 hx => s5.1 t b2 b3 hb.1 h0 hx
    have g6 := fun h0 hx => s6.1 t b3 b1 hb.1 h0 hx
    have st := strT t
    have st' := strT' t
    intro i
    fin_cases i
    · intro hx h0
      obtain ⟨k1, k2, k3, k4⟩ := g1 h0 hx
      obtain ⟨m1, m2, m3⟩ := st' k2
      refine ⟨k1, fun j hj => ?_⟩
      fin_cases j
      · exact absurd rfl hj
      all_goals assumption
    · intro hx h0
      obtain ⟨k1, k2, k3, k4⟩ := g2 h0 hx
      obtain ⟨m1, m2, m3⟩ := st' k2
      refine ⟨k1, fun j hj => ?_⟩
      fin_cases j
      · assumption
      · exact absurd rfl hj
      all_goals assumption
    · intro hx h0
      obtain ⟨k1, k2, k3, k4⟩ := g3 h0 hx
      obtain ⟨m1, m2, m3⟩ := st' k2
      refine ⟨k1, fun j hj => ?_⟩
      fin_cases j
      · assumption
      · assumption
      · exact absurd rfl hj
      all_goals assumption
    · intro hx h0
      obtain ⟨k1, k2, k3, k4⟩ := g4 h0 hx
      obtain ⟨m1, m2, m3⟩ := st k2
      refine ⟨k1, fun j hj => ?_⟩
      fin_cases j
      · assumption
      · assumption
      · assumption
      · exact absurd rfl hj
      all_goals assumption
    · intro hx h0
      obtain ⟨k1, k2, k3, k4⟩ := g5 h0 hx
      obtain ⟨m1, m2, m3⟩ := st k2
      refine ⟨k1, fun j hj => ?_⟩
      fin_cases j
      · assumption
      · assumption
      · assumption
      · assumption
      · exact absurd rfl hj
      all_goals assumption
    · intro hx h0
      obtain ⟨k1, k2, k3, k4⟩ := g6 h0 hx
      obtain ⟨m1, m2, m3⟩ := st k2
      refine ⟨k1, fun j hj => ?_⟩
      fin_cases j
      · assumption
      · assumption
      · assumption
      · assumption
      · assumption
      · exact absurd rfl hj
  have conv : ∀ i y, registered (Rs i) = some y → ∃ t, y = X t ∧ A i + t * B i = 0 ∧ ∀ j, 0 ≤ A j + t * B j := by
    have fin1 : ∀ t, StrictlyInside3 a' b' c' (X t) → 0 ≤ u + t * x1 → 0 ≤ v + t * x2 → 0 ≤ w + t * x3 → ∀ j, 0 ≤ A j + t * B j :=
      fun t hs h1 h2 h3 => (all6 t).2 ⟨⟨h1, h2, h3⟩, (strT' t hs).1.le, (strT' t hs).2.1.le, (strT' t hs).2.2.le⟩
    have fin2 : ∀ t, StrictlyInside3 a b c (X t) → 0 ≤ u' + t * y1 → 0 ≤ v' + t * y2 → 0 ≤ w' + t * y3 → ∀ j, 0 ≤ A j + t * B j :=
      fun t hs h1 h2 h3 => (all6 t).2 ⟨⟨(strT t hs).1.le, (strT t hs).2.1.le, (strT t hs).2.2.le⟩, h1, h2, h3⟩
    intro i y
    subst hA hB hRs
    fin_cases i
    · intro hy; obtain ⟨t, rfl, h0, h1, h2, h3⟩ := s1.2 y hy; exact ⟨t, rfl, h0, fin1 t h3 h1 h2 h0.ge⟩
    · intro hy; obtain ⟨t, rfl, h0, h1, h2, h3⟩ := s2.2 y hy; exact ⟨t, rfl, h0, fin1 t h3 h0.ge h1 h2⟩
    · intro hy; obtain ⟨t, rfl, h0, h1, h2, h3⟩ := s3.2 y hy; exact ⟨t, rfl, h0, fin1 t h3 h2 h0.ge h1⟩
    · intro hy; obtain ⟨t, rfl, h0, h1, h2, h3⟩ := s4.2 y hy; exact ⟨t, rfl, h0, fin2 t h3 h1 h2 h0.ge⟩
    · intro hy; obtain ⟨t, rfl, h0, h1, h2, h3⟩ := s5.2 y hy; exact ⟨t, rfl, h0, fin2 t h3 h0.ge h1 h2⟩
    · intro hy; obtain ⟨t, rfl, h0, h1, h2, h3⟩ := s6.2 y hy; exact ⟨t, rfl, h0, fin2 t h3 h2 h0.ge h1⟩
  have hnz : ¬ (x1 = 0 ∧ x2 = 0 ∧ x3 = 0) := by
    rintro ⟨rfl, rfl, rfl⟩; apply hdne; rw [hxd]; unfold bary; simp
  have hneg : ∃ i, B i < 0 := by
    subst hB
    rcases sum_zero_neg hxs hnz with h | h | h
    · exact ⟨1, h⟩
    · exact ⟨2, h⟩
    · exact ⟨0, h⟩
  have hpos : ∃ i, 0 < B i := by
    subst hB
    rcases sum_zero_neg (u := -x1) (v := -x2) (w := -x3) (by linear_combination -hxs) (by simpa using hnz) with h | h | h
    · exact ⟨1, by simpa using h⟩
    · exact ⟨2, by simpa using h⟩
    · exact ⟨0, by simpa using h⟩
  obtain ⟨t1, t2, i1, i2, hlt, hne, z1, z2, b1, b2, hS, huniq⟩ := two_ends A B 0 ((all6 0).2 (by simp; exact ⟨⟨hu, hv, hw⟩, hu', hv', hw'⟩)) hneg hpos
    (fun t ht i hb h0 => (hit t ht i hb h0).2)
  have m1 := (hit t1 ((hS t1).2 ⟨le_rfl, hlt.le⟩) i1 b1 z1).1
  have m2 := (hit t2 ((hS t2).2 ⟨hlt.le, le_rfl⟩) i2 b2 z2).1
  have hnone : ∀ i, i ≠ i1 → i ≠ i2 → registered (Rs i) = none := by
    intro i h1 h2
    cases hr : registered (Rs i) with
    | none => rfl
    | some y =>
      obtain ⟨t, -, h0, hall⟩ := conv i y hr
      rcases huniq i t hall h0 with ⟨rfl, _⟩ | ⟨rfl, _⟩
      · exact absurd rfl h1
      · exact absurd rfl h2
  have hget : ∀ i : Fin 6, ([r1, r2, r3, r4, r5, r6] : List (Option (TestResult K)))[i.1]? = some (Rs i) := by
    intro i; subst hRs; fin_cases i <;> rfl
  have hother : ∀ (k : Nat) x, ([r1, r2, r3, r4, r5, r6] : List (Option (TestResult K)))[k]? = some x → k ≠ i1.1 → k ≠ i2.1 → registered x = none := by
    intro k x hk h1 h2
    have hlen := (List.getElem?_eq_some_iff.1 hk).1
    simp only [List.length_cons, List.length_nil] at hlen
    have := hget ⟨k, by omega⟩
    rw [hk] at this
    rw [Option.some.inj this]
    exact hnone _ (fun h => h1 (by rw [← h])) (fun h => h2 (by rw [← h]))
  have hXne : X t1 ≠ X t2 := by
    intro he
    rw [eX, eX] at he
    obtain ⟨q1, q2, q3⟩ := bary_inj hnc (sX t1) (sX t2) he
    apply hnz
    have hsub : t1 - t2 ≠ 0 := sub_ne_zero.2 hlt.ne
    exact ⟨(mul_eq_zero.1 (show (t1 - t2) * x1 = 0 by linear_combination q1)).resolve_left hsub,
      (mul_eq_zero.1 (show (t1 - t2) * x2 = 0 by linear_combination q2)).resolve_left hsub,
      (mul_eq_zero.1 (show (t1 - t2) * x3 = 0 by linear_combination q3)).resolve_left hsub⟩
  have hseg : ∀ x, (InTriangle a b c x ∧ InTriangle a' b' c' x) ↔ OnSeg3 (X t1) (X t2) x := by
    intro x
    have hl : ∀ s, lerp3 (X t1) (X t2) s = X (t1 + s * (t2 - t1)) := by
      intro s; rw [hX, hX, hX]; unfold lerp3 add3; ext <;> simp only <;> ring
    have hpos : 0 < t2 - t1 := sub_pos.2 hlt
    constructor
    · rintro ⟨h1, h2⟩
      obtain ⟨t, rfl⟩ := hall x (inTriangle_plane h1) (inTriangle_plane h2)
      obtain ⟨g1, g2⟩ := (hS t).1 ((both t).2 ⟨h1, h2⟩)
      refine ⟨(t - t1) / (t2 - t1), div_nonneg (by linarith) hpos.le, (div_le_one hpos).2 (by linarith), ?_⟩
      rw [hl, div_mul_cancel₀ _ hpos.ne']
      congr 1; ring
    · rintro ⟨s, h0, h1, rfl⟩
      rw [hl]
      refine (both _).1 ((hS _).2 ⟨?_, ?_⟩)
      · have := mul_nonneg h0 hpos.le; linarith
      · have := mul_nonneg (sub_nonneg.2 h1) hpos.le; linarith
  rcases lt_or_gt_of_ne (fun h : i1.1 = i2.1 => hne (Fin.ext h)) with hij | hij
  · refine ⟨X t1, X t2, filterMap_two registered _ i1.1 i2.1 _ _ hij ?_ ?_ hother, hXne, hseg⟩
    · rw [hget]; exact m1
    · rw [hget]; exact m2
  · refine ⟨X t2, X t1, filterMap_two registered _ i2.1 i1.1 _ _ hij ?_ ?_ (fun k x hk h1 h2 => hother k x hk h2 h1), hXne.symm, fun x => by rw [hseg, onSeg3_swap]⟩
    · rw [hget]; exact m2
    · rw [hget]; exact m1

/-- The hypotheses are met: two triangles in the planes `z = 0` and `x = 1` that cross along the segment from `(1, 1, 0)` to `(1, 3, 0)`;
one point is on a side of the first, the other on a side of the second. -/
theorem C65_demo : ∃ (a b c a' b' c' : V3 ℚ) (l l' : ℚ) (rs rs' : List (Option (TestResult ℚ))), Testable a b c l ∧ Testable a' b' c' l' ∧
    ¬ (OnPlaneOf a b c a' ∧ OnPlaneOf a b c b' ∧ OnPlaneOf a b c c') ∧ Tests [a', b', c'] l' (edgesOf [a, b, c]) rs ∧
    Tests [a, b, c] l (edgesOf [a', b', c']) rs' ∧ some .violation ∉ rs ++ rs' ∧ points (rs ++ rs') = [⟨1, 3, 0⟩, ⟨1, 1, 0⟩] := by
  have hp : planeCoefficients ([⟨0, 0, 0⟩, ⟨4, 0, 0⟩, ⟨0, 4, 0⟩] : List (V3 ℚ)) = (⟨0, 0, 16⟩, 0, 2) := by decide +kernel
  have hp' : planeCoefficients ([⟨1, 1, -1⟩, ⟨1, 1, 3⟩, ⟨1, 9, 1⟩] : List (V3 ℚ)) = (⟨-32, 0, 0⟩, -32, 0) := by decide +kernel
  have hn : NotCollinear3 (⟨0, 0, 0⟩ : V3 ℚ) ⟨4, 0, 0⟩ ⟨0, 4, 0⟩ := by
    refine ⟨by decide +kernel, ?_⟩
    rintro ⟨t, ht⟩
    have := congrArg V3.y ht
    simp [lerp3] at this
  have hn' : NotCollinear3 (⟨1, 1, -1⟩ : V3 ℚ) ⟨1, 1, 3⟩ ⟨1, 9, 1⟩ := by
    refine ⟨by decide +kernel, ?_⟩
    rintro ⟨t, ht⟩
    have := congrArg V3.y ht
    simp [lerp3] at this
  refine ⟨⟨0, 0, 0⟩, ⟨4, 0, 0⟩, ⟨0, 4, 0⟩, ⟨1, 1, -1⟩, ⟨1, 1, 3⟩, ⟨1, 9, 1⟩, 16, 32, [some .miss, some (.point ⟨1, 3, 0⟩), some .miss],
    [some (.point ⟨1, 1, 0⟩), some .miss, some .miss], ⟨hn, ?_, ?_⟩, ⟨hn', ?_, ?_⟩, ?_, ?_, ?_, by decide +kernel, by decide +kernel⟩
  · rw [hp]; exact ⟨by norm_num, by norm_num⟩
  · rw [hp]; unfold Singular; simp
  · rw [hp']; exact ⟨by norm_num, by norm_num⟩
  · rw [hp']; unfold Singular; simp
  · rw [plane_dot hn]
    rintro ⟨h, -, -⟩
    revert h
    decide +kernel
  · rw [edges_tri]
    refine .cons ?_ (.cons ?_ (.cons ?_ .nil))
    all_goals
      refine ⟨_, ⟨.found 0 1 2, by unfold ChooseThree; rw [if_neg (by simp)], rfl⟩, ?_⟩
      decide +kernel
  · rw [edges_tri]
    refine .cons ?_ (.cons ?_ (.cons ?_ .nil))
    all_goals
      refine ⟨_, ⟨.found 0 1 2, by unfold ChooseThree; rw [if_neg (by simp)], rfl⟩, ?_⟩
      decide +kernel

end Mcut.Geom
