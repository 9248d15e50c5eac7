import Verif.Lemmas.C62

/-!
# C62: one edge against one face
-/
namespace Mcut.Geom
variable {K : Type*} [Field K] [LinearOrder K] [IsStrictOrderedRing K]

theorem edgeFaceTest_one {f : V3 K → InCode} {p q r : V3 K} :
    edgeFaceTest .one f (some p) q r = (match f p with
      | .vertex => .violation
      | .edge => .violation
      | .inside => .point p
      | .outside => .miss) := rfl

/-- The outcome for a proper triangle and a segment that does not lie in its plane, in terms of point sets: a point is registered exactly if the
segment, both its ends off the plane, passes the open triangle, and it is that point; nothing happens exactly if segment and triangle are
disjoint; in every other case (they touch) a violation of general position is reported. No undefined behaviour. -/
theorem C62_triangle (a b c : V3 K) (l : K) (hnc : NotCollinear3 a b c) (hl : IsLength (planeCoefficients [a, b, c]).1 l)
    (hs : ¬ Singular (planeCoefficients [a, b, c]).1 (planeCoefficients [a, b, c]).2.2) (q r : V3 K)
    (hqr : ¬ (OnPlaneOf a b c q ∧ OnPlaneOf a b c r)) (res : Option (TestResult K)) (h : EdgeFace [a, b, c] l q r res) :
    ∃ t, res = some t ∧
      (∀ p, t = .point p ↔ ¬ OnPlaneOf a b c q ∧ ¬ OnPlaneOf a b c r ∧ OnSeg3 q r p ∧ StrictlyInside3 a b c p) ∧
      (t = .miss ↔ ∀ p, OnSeg3 q r p → ¬ InTriangle a b c p) ∧
      (t = .violation ↔ ∃ p, OnSeg3 q r p ∧ InTriangle a b c p ∧ (OnSide a b c p ∨ p = q ∨ p = r)) := by
  obtain ⟨code0, hret, rfl⟩ := h
  obtain ⟨code, rfl, hspec, hcode⟩ := C42_face_partial _ _ (tri_good hnc hl hs) q r _ hret
  refine ⟨_, rfl, ?_⟩
  have hpt := C42_point (planeCoefficients [a, b, c]).1 (planeCoefficients [a, b, c]).2.1 q r
  rw [hcode] at hpt
  have hpl := tri_plane hnc
  have huniq : ∀ p p', OnSeg3 q r p → OnPlaneOf a b c p → OnSeg3 q r p' → OnPlaneOf a b c p' → p = p' := by
    intro p p' h1 h2 h3 h4
    refine seg_plane_unique (n := (planeCoefficients [a, b, c]).1) (d := (planeCoefficients [a, b, c]).2.1) ?_ h1 ((hpl p).2 h2) h3 ((hpl p').2 h4)
    rw [hpl, hpl]; exact hqr
  -- an end point in the plane is the only candidate
  have hend : ∀ e, (e = q ∨ e = r) → OnPlaneOf a b c e →
      ((∀ p, (if touches (pointInPolygon3 (planeCoefficients [a, b, c]).1 l (planeCoefficients [a, b, c]).2.2 e [a, b, c]) = true then
          TestResult.violation else TestResult.miss) = TestResult.point p ↔
        ¬ OnPlaneOf a b c q ∧ ¬ OnPlaneOf a b c r ∧ OnSeg3 q r p ∧ StrictlyInside3 a b c p) ∧
      ((if touches (pointInPolygon3 (planeCoefficients [a, b, c]).1 l (planeCoefficients [a, b, c]).2.2 e [a, b, c]) = true then
          (TestResult.violation : TestResult K) else TestResult.miss) = TestResult.miss ↔ ∀ p, OnSeg3 q r p → ¬ InTriangle a b c p) ∧
      ((if touches (pointInPolygon3 (planeCoefficients [a, b, c]).1 l (planeCoefficients [a, b, c]).2.2 e [a, b, c]) = true then
          (TestResult.violation : TestResult K) else TestResult.miss) = TestResult.violation ↔
            ∃ p, OnSeg3 q r p ∧ InTriangle a b c p ∧ (OnSide a b c p ∨ p = q ∨ p = r))) := by
    intro e he hpe
    have hseg : OnSeg3 q r e := by rcases he with rfl | rfl; exacts [onSeg3_left _ _, onSeg3_right _ _]
    have ht := touches_iff (tri_good3 hnc hl hs hpe) hnc
    have hno : ∀ p, ¬ (¬ OnPlaneOf a b c q ∧ ¬ OnPlaneOf a b c r ∧ OnSeg3 q r p ∧ StrictlyInside3 a b c p) := by
      rintro p ⟨h1, h2, _⟩
      rcases he with rfl | rfl
      · exact h1 hpe
      · exact h2 hpe
    by_cases hi : InTriangle a b c e
    · rw [if_pos (ht.2 hi)]
      refine ⟨fun p => ⟨fun hc => by simp at hc, fun hc => absurd hc (hno p)⟩, ⟨fun hc => by simp at hc, fun hc => absurd hi (hc e hseg)⟩, ?_⟩
      simp only [true_iff]
      exact ⟨e, hseg, hi, .inr he⟩
    · rw [if_neg (fun hc => hi (ht.1 hc))]
      have hnone : ∀ p, OnSeg3 q r p → ¬ InTriangle a b c p := fun p h1 h2 => by
        have := huniq p e h1 (inTriangle_plane h2) hseg hpe
        exact hi (this ▸ h2)
      refine ⟨fun p => ⟨fun hc => by simp at hc, fun hc => absurd hc (hno p)⟩, ⟨fun _ => hnone, fun _ => rfl⟩, ?_⟩
      simp only [reduceCtorEq, false_iff, not_exists]
      rintro p ⟨h1, h2, _⟩
      exact hnone p h1 h2
  cases code with
  | inPlane =>
    exfalso
    apply hqr
    exact ⟨(hpl q).1 (hspec q (onSeg3_left _ _)), (hpl r).1 (hspec r (onSeg3_right _ _))⟩
  | q => exact hend q (.inl rfl) ((hpl q).1 hspec.1)
  | r => exact hend r (.inr rfl) ((hpl r).1 hspec.1)
  | none =>
    have hnone : ∀ p, OnSeg3 q r p → ¬ OnPlaneOf a b c p := fun p h1 h2 => hspec p h1 ((hpl p).2 h2)
    refine ⟨fun p => ⟨fun hc => by simp [edgeFaceTest] at hc, fun ⟨_, _, h1, h2⟩ => ?_⟩, ⟨fun _ p h1 h2 => ?_, fun _ => rfl⟩, ?_⟩
    · exact absurd (inTriangle_plane ((inTriangle_iff hnc).2 (.inl h2))) (hnone p h1)
    · exact hnone p h1 (inTriangle_plane h2)
    · simp only [edgeFaceTest, reduceCtorEq, false_iff, not_exists]
      rintro p ⟨h1, h2, _⟩
      exact hnone p h1 (inTriangle_plane h2)
  | one =>
    obtain ⟨hq, hr, p0, hp0, hp0p⟩ := hspec
    rw [hpl] at hq hr hp0p
    obtain ⟨hp1, hp2, hp3⟩ := hpt
    cases hx : (segmentPlane (planeCoefficients [a, b, c]).1 (planeCoefficients [a, b, c]).2.1 q r).2 with
    | none =>
      exfalso
      have hsame := hp2.1 hx
      obtain ⟨t, _, _, rfl⟩ := hp0
      apply hq
      rw [← hpl, onPlane_iff] at hp0p ⊢
      rw [side_lerp3] at hp0p
      have : side (planeCoefficients [a, b, c]).1 (planeCoefficients [a, b, c]).2.1 r
          = side (planeCoefficients [a, b, c]).1 (planeCoefficients [a, b, c]).2.1 q := by
        unfold SamePlane at hsame
        unfold side dot
        rw [hsame]
      rw [this] at hp0p
      linear_combination hp0p
    | some x =>
      have hxs : OnSeg3 q r x := hp3 x hx (by simp)
      have hxp : OnPlaneOf a b c x := (hpl x).1 (hp1 x hx).1
      have hxq : x ≠ q := by rintro rfl; exact hq hxp
      have hxr : x ≠ r := by rintro rfl; exact hr hxp
      have hpip := pip_triangle (tri_good3 hnc hl hs hxp) hnc
      simp only [edgeFaceTest_one]
      have hall : ∀ p, OnSeg3 q r p → InTriangle a b c p → p = x := fun p h1 h2 => huniq p x h1 (inTriangle_plane h2) hxs hxp
      cases hc : pointInPolygon3 (planeCoefficients [a, b, c]).1 l (planeCoefficients [a, b, c]).2.2 x [a, b, c] with
      | inside =>
        have hin := hpip.1.1 hc
        have hit := (inTriangle_iff hnc).2 (.inl hin)
        simp only [TestResult.point.injEq, reduceCtorEq, false_iff]
        refine ⟨fun p => ⟨?_, fun ⟨_, _, h1, h2⟩ => (hall p h1 ((inTriangle_iff hnc).2 (.inl h2))).symm⟩, fun hc => hc x hxs hit, ?_⟩
        · rintro rfl; exact ⟨hq, hr, hxs, hin⟩
        · rintro ⟨p, h1, h2, h3⟩
          have := hall p h1 h2
          subst this
          rcases h3 with h3 | h3 | h3
          · exact inside_not_side hin h3
          · exact hxq h3
          · exact hxr h3
      | outside =>
        have hout := hpip.2.1.1 hc
        have hnone : ∀ p, OnSeg3 q r p → ¬ InTriangle a b c p := fun p h1 h2 => hout (hall p h1 h2 ▸ h2)
        simp only [reduceCtorEq, false_iff, true_iff]
        refine ⟨fun p ⟨_, _, h1, h2⟩ => hnone p h1 ((inTriangle_iff hnc).2 (.inl h2)), hnone, ?_⟩
        rintro ⟨p, h1, h2, _⟩
        exact hnone p h1 h2
      | _ =>
        have hsd := hpip.2.2.1 (by rw [hc]; simp)
        have hit := (inTriangle_iff hnc).2 (.inr hsd)
        simp only [reduceCtorEq, false_iff, true_iff]
        refine ⟨fun p ⟨_, _, h1, h2⟩ => ?_, fun hc => hc x hxs hit, ⟨x, hxs, hit, .inl hsd⟩⟩
        have := hall p h1 ((inTriangle_iff hnc).2 (.inl h2))
        subst this
        exact inside_not_side h2 hsd

/-- A segment in the plane of the triangle: a violation is reported exactly if one of its ends is in the triangle; no point is registered. -/
theorem C62_coplanar (a b c : V3 K) (l : K) (hnc : NotCollinear3 a b c) (hl : IsLength (planeCoefficients [a, b, c]).1 l)
    (hs : ¬ Singular (planeCoefficients [a, b, c]).1 (planeCoefficients [a, b, c]).2.2) (q r : V3 K)
    (hq : OnPlaneOf a b c q) (hr : OnPlaneOf a b c r) (res : Option (TestResult K)) (h : EdgeFace [a, b, c] l q r res) :
    (InTriangle a b c q ∨ InTriangle a b c r → res = some .violation) ∧ (¬ InTriangle a b c q ∧ ¬ InTriangle a b c r → res = some .miss) := by
  obtain ⟨code0, hret, rfl⟩ := h
  obtain ⟨code, rfl, hspec, hcode⟩ := C42_face_partial _ _ (tri_good hnc hl hs) q r _ hret
  have hpl := tri_plane hnc
  have : code = .inPlane := by
    cases code with
    | inPlane => rfl
    | q => exact absurd ((hpl r).2 hr) hspec.2
    | r => exact absurd ((hpl q).2 hq) hspec.2
    | none => exact absurd ((hpl q).2 hq) (hspec q (onSeg3_left _ _))
    | one => exact absurd ((hpl q).2 hq) hspec.1
  subst this
  have tq := touches_iff (tri_good3 hnc hl hs hq) hnc
  have tr := touches_iff (tri_good3 hnc hl hs hr) hnc
  simp only [Option.map_some, edgeFaceTest]
  constructor
  · rintro (h1 | h1)
    · rw [if_pos (tq.2 h1)]
    · split
      · rfl
      · rw [if_pos (tr.2 h1)]
  · rintro ⟨h1, h2⟩
    rw [if_neg (fun hc => h1 (tq.1 hc)), if_neg (fun hc => h2 (tr.1 hc))]

/-! ## Two triangles -/

/-- The two triangles have no common point exactly if all six tests (the sides of each against the other) do nothing. For proper triangles that do
not lie in one plane. So no intersection of two triangles is overlooked, and none is invented. -/
theorem C62_two_triangles (a b c a' b' c' : V3 K) (l l' : K) (hnc : NotCollinear3 a b c) (hl : IsLength (planeCoefficients [a, b, c]).1 l)
    (hs : ¬ Singular (planeCoefficients [a, b, c]).1 (planeCoefficients [a, b, c]).2.2)
    (hnc' : NotCollinear3 a' b' c') (hl' : IsLength (planeCoefficients [a', b', c']).1 l')
    (hs' : ¬ Singular (planeCoefficients [a', b', c']).1 (planeCoefficients [a', b', c']).2.2)
    (hpl : ¬ (OnPlaneOf a b c a' ∧ OnPlaneOf a b c b' ∧ OnPlaneOf a b c c')) :
    (∀ p, ¬ (InTriangle a b c p ∧ InTriangle a' b' c' p)) ↔
      (∀ e ∈ edgesOf [a, b, c], ∀ res, EdgeFace [a', b', c'] l' e.1 e.2 res → res = some .miss) ∧
      (∀ e ∈ edgesOf [a', b', c'], ∀ res, EdgeFace [a, b, c] l e.1 e.2 res → res = some .miss) := by
  constructor
  · intro hd
    constructor
    · intro e he res hres
      obtain ⟨m1, m2⟩ := mem_edgesOf he
      have i1 := vertex_inTriangle m1; have i2 := vertex_inTriangle m2
      by_cases hc : OnPlaneOf a' b' c' e.1 ∧ OnPlaneOf a' b' c' e.2
      · exact (C62_coplanar a' b' c' l' hnc' hl' hs' e.1 e.2 hc.1 hc.2 res hres).2 ⟨fun h => hd _ ⟨i1, h⟩, fun h => hd _ ⟨i2, h⟩⟩
      · obtain ⟨t, rfl, _, hm, _⟩ := C62_triangle a' b' c' l' hnc' hl' hs' e.1 e.2 hc res hres
        rw [hm.2 (fun p h1 h2 => hd p ⟨side_inTriangle he h1, h2⟩)]
    · intro e he res hres
      obtain ⟨m1, m2⟩ := mem_edgesOf he
      have i1 := vertex_inTriangle m1; have i2 := vertex_inTriangle m2
      by_cases hc : OnPlaneOf a b c e.1 ∧ OnPlaneOf a b c e.2
      · exact (C62_coplanar a b c l hnc hl hs e.1 e.2 hc.1 hc.2 res hres).2 ⟨fun h => hd _ ⟨h, i1⟩, fun h => hd _ ⟨h, i2⟩⟩
      · obtain ⟨t, rfl, _, hm, _⟩ := C62_triangle a b c l hnc hl hs e.1 e.2 hc res hres
        rw [hm.2 (fun p h1 h2 => hd p ⟨h2, side_inTriangle he h1⟩)]
  · rintro ⟨h1, h2⟩ p ⟨hp, hp'⟩
    rcases exit_point hnc hnc' hpl hp hp' with ⟨e, he, x, hx, hin, hoff⟩ | ⟨e, he, x, hx, hin, hoff⟩
    · obtain ⟨code, hcode⟩ := C42_face_total [a', b', c'] (planeCoefficients [a', b', c']).1 l' (planeCoefficients [a', b', c']).2.2
        (fun a b c => segmentPlaneType a b c e.1 e.2)
      have := h1 e he _ ⟨code, hcode, rfl⟩
      obtain ⟨t, ht, _, hm, _⟩ := C62_triangle a' b' c' l' hnc' hl' hs' e.1 e.2 hoff _ ⟨code, hcode, rfl⟩
      rw [ht] at this
      exact hm.1 (Option.some.inj this) x hx hin
    · obtain ⟨code, hcode⟩ := C42_face_total [a, b, c] (planeCoefficients [a, b, c]).1 l (planeCoefficients [a, b, c]).2.2
        (fun a b c => segmentPlaneType a b c e.1 e.2)
      have := h2 e he _ ⟨code, hcode, rfl⟩
      obtain ⟨t, ht, _, hm, _⟩ := C62_triangle a b c l hnc hl hs e.1 e.2 hoff _ ⟨code, hcode, rfl⟩
      rw [ht] at this
      exact hm.1 (Option.some.inj this) x hx hin

/-! ## Concrete cases -/

/-- The hypotheses are met by a triangle and three segments: one that passes it, one that touches a side, one that misses it. -/
theorem C62_demo : ∃ (a b c : V3 ℚ) (l : ℚ), NotCollinear3 a b c ∧ IsLength (planeCoefficients [a, b, c]).1 l ∧
    ¬ Singular (planeCoefficients [a, b, c]).1 (planeCoefficients [a, b, c]).2.2 ∧
    EdgeFace [a, b, c] l ⟨1, 1, -1⟩ ⟨1, 1, 3⟩ (some (.point ⟨1, 1, 0⟩)) ∧
    EdgeFace [a, b, c] l ⟨1, 0, -1⟩ ⟨1, 0, 3⟩ (some .violation) ∧
    EdgeFace [a, b, c] l ⟨1, 1, 0⟩ ⟨1, 1, 3⟩ (some .violation) ∧
    EdgeFace [a, b, c] l ⟨5, 0, -1⟩ ⟨1, 6, 3⟩ (some .miss) := by
  have hp : planeCoefficients ([⟨0, 0, 0⟩, ⟨4, 0, 0⟩, ⟨0, 4, 0⟩] : List (V3 ℚ)) = (⟨0, 0, 16⟩, 0, 2) := by decide +kernel
  refine ⟨⟨0, 0, 0⟩, ⟨4, 0, 0⟩, ⟨0, 4, 0⟩, 16, ⟨by decide +kernel, ?_⟩, ?_, ?_, ?_, ?_, ?_, ?_⟩
  · rintro ⟨t, ht⟩
    have := congrArg V3.y ht
    simp [lerp3] at this
  · rw [hp]; exact ⟨by norm_num, by norm_num⟩
  · rw [hp]; unfold Singular; simp
  all_goals
    refine ⟨_, ⟨.found 0 1 2, by unfold ChooseThree; rw [if_neg (by simp)], rfl⟩, ?_⟩
    decide +kernel

/-- Two triangles in one plane may overlap although all six tests do nothing: a hexagram. The corners of each are outside the other, and a side
that lies in the plane of the other triangle is only tested through its end points. (C62_two_triangles excludes triangles in one plane.) -/
theorem C62_hexagram_fails : ∃ (a b c a' b' c' p : V3 ℚ), StrictlyInside3 a b c p ∧ StrictlyInside3 a' b' c' p ∧
    (∀ e ∈ edgesOf [a, b, c], ∀ l res, EdgeFace [a', b', c'] l e.1 e.2 res → IsLength (planeCoefficients [a', b', c']).1 l → res = some .miss) ∧
    (∀ e ∈ edgesOf [a', b', c'], ∀ l res, EdgeFace [a, b, c] l e.1 e.2 res → IsLength (planeCoefficients [a, b, c]).1 l → res = some .miss) := by
  have hp : planeCoefficients ([⟨0, -6, 0⟩, ⟨6, 3, 0⟩, ⟨-6, 3, 0⟩] : List (V3 ℚ)) = (⟨0, 0, 108⟩, 0, 2) := by decide +kernel
  have hp' : planeCoefficients ([⟨0, 6, 0⟩, ⟨-6, -3, 0⟩, ⟨6, -3, 0⟩] : List (V3 ℚ)) = (⟨0, 0, 108⟩, 0, 2) := by decide +kernel
  have hn : NotCollinear3 (⟨0, -6, 0⟩ : V3 ℚ) ⟨6, 3, 0⟩ ⟨-6, 3, 0⟩ := by
    refine ⟨by decide +kernel, ?_⟩
    rintro ⟨t, ht⟩
    have h1 := congrArg V3.x ht; have h2 := congrArg V3.y ht
    simp only [lerp3] at h1 h2
    linarith
  have hn' : NotCollinear3 (⟨0, 6, 0⟩ : V3 ℚ) ⟨-6, -3, 0⟩ ⟨6, -3, 0⟩ := by
    refine ⟨by decide +kernel, ?_⟩
    rintro ⟨t, ht⟩
    have h1 := congrArg V3.x ht; have h2 := congrArg V3.y ht
    simp only [lerp3] at h1 h2
    linarith
  refine ⟨⟨0, -6, 0⟩, ⟨6, 3, 0⟩, ⟨-6, 3, 0⟩, ⟨0, 6, 0⟩, ⟨-6, -3, 0⟩, ⟨6, -3, 0⟩, ⟨0, 0, 0⟩,
    ⟨hn, 1/3, 1/3, 1/3, by norm_num, by norm_num, by norm_num, by norm_num, by norm_num⟩,
    ⟨hn', 1/3, 1/3, 1/3, by norm_num, by norm_num, by norm_num, by norm_num, by norm_num⟩, ?_, ?_⟩
  · intro e he l res hres hl
    have ho : ∀ x ∈ ([⟨0, -6, 0⟩, ⟨6, 3, 0⟩, ⟨-6, 3, 0⟩] : List (V3 ℚ)), OnPlaneOf ⟨0, 6, 0⟩ ⟨-6, -3, 0⟩ ⟨6, -3, 0⟩ x ∧
        ¬ InTriangle ⟨0, 6, 0⟩ ⟨-6, -3, 0⟩ ⟨6, -3, 0⟩ x := by
      intro x hx
      refine ⟨(onPlaneOf_iff hn' x).2 ?_, ?_⟩
      · simp only [List.mem_cons, List.not_mem_nil, or_false] at hx
        rcases hx with rfl | rfl | rfl <;> norm_num [orient3d]
      · rintro ⟨u, v, w, h1, h2, h3, h4, h5⟩
        simp only [List.mem_cons, List.not_mem_nil, or_false] at hx
        rcases hx with rfl | rfl | rfl <;> simp only [V3.mk.injEq] at h5 <;> linarith [h5.1, h5.2.1]
    obtain ⟨m1, m2⟩ := mem_edgesOf he
    refine (C62_coplanar _ _ _ l hn' hl ?_ e.1 e.2 (ho _ m1).1 (ho _ m2).1 res hres).2 ⟨(ho _ m1).2, (ho _ m2).2⟩
    rw [hp']; unfold Singular; simp
  · intro e he l res hres hl
    have ho : ∀ x ∈ ([⟨0, 6, 0⟩, ⟨-6, -3, 0⟩, ⟨6, -3, 0⟩] : List (V3 ℚ)), OnPlaneOf ⟨0, -6, 0⟩ ⟨6, 3, 0⟩ ⟨-6, 3, 0⟩ x ∧
        ¬ InTriangle ⟨0, -6, 0⟩ ⟨6, 3, 0⟩ ⟨-6, 3, 0⟩ x := by
      intro x hx
      refine ⟨(onPlaneOf_iff hn x).2 ?_, ?_⟩
      · simp only [List.mem_cons, List.not_mem_nil, or_false] at hx
        rcases hx with rfl | rfl | rfl <;> norm_num [orient3d]
      · rintro ⟨u, v, w, h1, h2, h3, h4, h5⟩
        simp only [List.mem_cons, List.not_mem_nil, or_false] at hx
        rcases hx with rfl | rfl | rfl <;> simp only [V3.mk.injEq] at h5 <;> linarith [h5.1, h5.2.1]
    obtain ⟨m1, m2⟩ := mem_edgesOf he
    refine (C62_coplanar _ _ _ l hn hl ?_ e.1 e.2 (ho _ m1).1 (ho _ m2).1 res hres).2 ⟨(ho _ m1).2, (ho _ m2).2⟩
    rw [hp]; unfold Singular; simp

/-- Any face with a sound plane (not only a triangle): no undefined behaviour; a registered point is the point where the segment, both its ends off
the plane, crosses the plane, and the point-in-polygon test (C43) puts it inside.
Missing: the meaning of the point-in-polygon test for every polygon (C43 gives it in terms of triangles of a fan), rounding. -/
theorem C62_face_partial (vs : List (V3 K)) (l : K) (g : GoodFace vs l) (q r : V3 K) (res : Option (TestResult K)) (h : EdgeFace vs l q r res) :
    ∃ t, res = some t ∧ ∀ p, t = .point p →
      (¬ OnPlane (planeCoefficients vs).1 (planeCoefficients vs).2.1 q ∧ ¬ OnPlane (planeCoefficients vs).1 (planeCoefficients vs).2.1 r) ∧
      OnSeg3 q r p ∧ OnPlane (planeCoefficients vs).1 (planeCoefficients vs).2.1 p ∧
      pointInPolygon3 (planeCoefficients vs).1 l (planeCoefficients vs).2.2 p vs = .inside ∧ p ∉ vs := by
  obtain ⟨code0, hret, rfl⟩ := h
  obtain ⟨code, rfl, hspec, hcode⟩ := C42_face_partial _ _ g q r _ hret
  refine ⟨_, rfl, fun p hp => ?_⟩
  have hpt := C42_point (planeCoefficients vs).1 (planeCoefficients vs).2.1 q r
  rw [hcode] at hpt
  cases code with
  | inPlane => simp only [edgeFaceTest] at hp; split at hp <;> [skip; split at hp] <;> simp at hp
  | q => simp only [edgeFaceTest] at hp; split at hp <;> simp at hp
  | r => simp only [edgeFaceTest] at hp; split at hp <;> simp at hp
  | none => simp [edgeFaceTest] at hp
  | one =>
    obtain ⟨hq, hr, p0, hp0, hp0p⟩ := hspec
    obtain ⟨hp1, hp2, hp3⟩ := hpt
    cases hx : (segmentPlane (planeCoefficients vs).1 (planeCoefficients vs).2.1 q r).2 with
    | none =>
      exfalso
      have hsame := hp2.1 hx
      obtain ⟨t, _, _, rfl⟩ := hp0
      apply hq
      rw [onPlane_iff] at hp0p ⊢
      rw [side_lerp3] at hp0p
      have : side (planeCoefficients vs).1 (planeCoefficients vs).2.1 r = side (planeCoefficients vs).1 (planeCoefficients vs).2.1 q := by
        unfold SamePlane at hsame
        unfold side dot
        rw [hsame]
      rw [this] at hp0p
      linear_combination hp0p
    | some x =>
      rw [hx] at hp
      simp only [edgeFaceTest_one] at hp
      cases hc : pointInPolygon3 (planeCoefficients vs).1 l (planeCoefficients vs).2.2 x vs with
      | inside =>
        rw [hc] at hp
        simp only [TestResult.point.injEq] at hp
        subst hp
        refine ⟨⟨hq, hr⟩, hp3 x hx (by simp), (hp1 x hx).1, hc, fun hm => ?_⟩
        have hcl := comp_largest g.area
        have hsp : ∀ v ∈ vs, SamePlane (planeCoefficients vs).1 v x := fun v hv => planar_normal g.planar v hv x hm
        have := (C43_space_vertex ⟨g.length, hcl.2, hcl.1, g.regular, hsp⟩).2 hm
        change pointInPolygon3 _ l (planeCoefficients vs).2.2 x vs = .vertex at this
        rw [hc] at this
        cases this
      | _ => rw [hc] at hp; simp at hp

end Mcut.Geom
