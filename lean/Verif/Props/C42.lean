import Verif.Props.C58

/-!
# C42: segments, lines and the plane of a polygon
-/
namespace Mcut.Geom

variable {K : Type*} [Field K] [LinearOrder K] [IsStrictOrderedRing K]

/-- The code of `compute_segment_plane_intersection`, for every plane equation and every segment: each code is returned exactly when the
segment, as a set of points, meets the plane in the way the code stands for. -/
theorem C42_segment_plane (n : V3 K) (d : K) (q r : V3 K) (code : PlaneCode) :
    (segmentPlane n d q r).1 = code ↔ PlaneCodeSpec (OnPlane n d) q r code := by
  rw [segmentPlane_sign]
  exact signCode_spec (f := side n d) (fun x => onPlane_iff) (side_lerp3 n d) q r code

theorem along_eq (q r : V3 K) (t : K) : along q r t = lerp3 q r t := rfl

/-- The computed point: it is written unless the segment is parallel to the plane; it then is the only point of the line on the plane, and for
the codes 'q', 'r', '1' it is a point of the segment. -/
theorem C42_point (n : V3 K) (d : K) (q r : V3 K) :
    (∀ p, (segmentPlane n d q r).2 = some p → OnPlane n d p ∧ OnLine3 q r p ∧ ∀ p', OnLine3 q r p' → OnPlane n d p' → p' = p) ∧
    ((segmentPlane n d q r).2 = Option.none ↔ SamePlane n q r) ∧
    (∀ p, (segmentPlane n d q r).2 = some p → (segmentPlane n d q r).1 ≠ .none → OnSeg3 q r p) := by
  have hcode := C42_segment_plane n d q r (segmentPlane n d q r).1
  have hden : dot (sub3 r q) n = 0 ↔ SamePlane n q r := by
    unfold dot sub3 SamePlane
    constructor <;> intro h <;> simp only at * <;> linear_combination -h
  have hp : ∀ p, (segmentPlane n d q r).2 = some p → dot (sub3 r q) n ≠ 0 ∧ p = lerp3 q r ((d - dot q n) / dot (sub3 r q) n) := by
    intro p h
    unfold segmentPlane at h
    simp only at h
    by_cases h0 : dot (sub3 r q) n = 0
    · rw [if_pos h0] at h; split at h <;> exact absurd h (by simp)
    · refine ⟨h0, ?_⟩
      rw [if_neg h0] at h
      split at h
      · exact (Option.some.inj h).symm
      split at h
      · exact (Option.some.inj h).symm
      split at h <;> exact (Option.some.inj h).symm
  have huniq : dot (sub3 r q) n ≠ 0 → ∀ t, OnPlane n d (lerp3 q r t) ↔ t = (d - dot q n) / dot (sub3 r q) n := by
    intro h0 t
    rw [onPlane_iff, side_lerp3, eq_div_iff h0]
    unfold side dot sub3
    constructor <;> intro h <;> simp only at * <;> linear_combination h
  refine ⟨fun p h => ?_, ?_, fun p h hne => ?_⟩
  · obtain ⟨h0, rfl⟩ := hp p h
    refine ⟨(huniq h0 _).2 rfl, ⟨_, rfl⟩, ?_⟩
    rintro _ ⟨t, rfl⟩ ht
    rw [(huniq h0 t).1 ht]
  · rw [← hden]
    unfold segmentPlane
    simp only
    by_cases h0 : dot (sub3 r q) n = 0
    · simp only [h0, if_true]; split <;> simp
    · simp only [h0, if_false]
      split; · simp
      split; · simp
      split <;> simp
  · obtain ⟨h0, rfl⟩ := hp p h
    have hspec := hcode.1 rfl
    generalize (segmentPlane n d q r).1 = code at hspec hne
    have hex : ∃ p, OnSeg3 q r p ∧ OnPlane n d p := by
      cases code with
      | inPlane => exact ⟨q, ⟨0, le_rfl, zero_le_one, (lerp3_zero q r).symm⟩, hspec q ⟨0, le_rfl, zero_le_one, (lerp3_zero q r).symm⟩⟩
      | q => exact ⟨q, ⟨0, le_rfl, zero_le_one, (lerp3_zero q r).symm⟩, hspec.1⟩
      | r => exact ⟨r, ⟨1, zero_le_one, le_rfl, (lerp3_one q r).symm⟩, hspec.1⟩
      | none => exact absurd rfl hne
      | one => exact hspec.2.2
    obtain ⟨_, ⟨t, h1, h2, rfl⟩, ht⟩ := hex
    rw [(huniq h0 t).1 ht] at h1 h2
    exact ⟨_, h1, h2, rfl⟩

/-- The exact version, from three vertices that are not collinear: the code classifies the segment against the plane through them. -/
theorem C42_type (a b c : V3 K) (h : NotCollinear3 a b c) (q r : V3 K) (code : PlaneCode) :
    segmentPlaneType a b c q r = code ↔ PlaneCodeSpec (OnPlaneOf a b c) q r code := by
  rw [type_sign]
  exact signCode_spec (f := orient3d a b c) (onPlaneOf_iff h) (orient3d_affine a b c) q r code

/-! ## The whole functions, with the choice of the three vertices -/

theorem comp_largest {n : V3 K} (h : n ≠ ⟨0, 0, 0⟩) : comp n (largestComponent n) ≠ 0 ∧ largestComponent n ≤ 2 := by
  have hz : ∀ x : K, (0 < absK x) ↔ x ≠ 0 := fun x => by rw [absK_eq]; exact abs_pos
  have hn : ∀ x : K, 0 ≤ absK x := fun x => by rw [absK_eq]; exact abs_nonneg x
  unfold largestComponent
  by_cases hx : absK n.x > 0
  · simp only [hx, if_true]
    by_cases hy : absK n.y > absK n.x
    · simp only [hy, if_true]
      split
      · rename_i h2; exact ⟨by simpa [comp] using (hz n.z).1 (lt_trans (lt_of_le_of_lt (hn _) hy) h2), le_refl _⟩
      · exact ⟨by simpa [comp] using (hz n.y).1 (lt_of_le_of_lt (hn _) hy), by omega⟩
    · simp only [hy, if_false]
      split
      · rename_i h2; exact ⟨by simpa [comp] using (hz n.z).1 (lt_trans hx h2), le_refl _⟩
      · exact ⟨by simpa [comp] using (hz n.x).1 hx, by omega⟩
  · simp only [hx, if_false]
    by_cases hy : absK n.y > 0
    · simp only [hy, if_true]
      split
      · rename_i h2; exact ⟨by simpa [comp] using (hz n.z).1 (lt_trans hy h2), le_refl _⟩
      · exact ⟨by simpa [comp] using (hz n.y).1 hy, by omega⟩
    · simp only [hy, if_false]
      have hxy : n.x = 0 ∧ n.y = 0 := ⟨by by_contra hc; exact hx ((hz _).2 hc), by by_contra hc; exact hy ((hz _).2 hc)⟩
      have hzz : n.z ≠ 0 := fun h0 => h (V3.ext hxy.1 hxy.2 h0)
      rw [if_pos ((hz _).2 hzz)]
      exact ⟨by simpa [comp] using hzz, le_refl _⟩

/-- Points on one line have no area. -/
theorem normalFrom_line {v0 w : V3 K} : ∀ vs : List (V3 K), (∀ v ∈ vs, OnLine3 v0 w v) → normalFrom v0 vs = ⟨0, 0, 0⟩
  | [], _ => rfl
  | [_], _ => rfl
  | a :: b :: rest, h => by
    obtain ⟨s, hs⟩ := h a (by simp)
    obtain ⟨t, ht⟩ := h b (by simp)
    rw [normalFrom, normalFrom_line (b :: rest) (fun v hv => h v (List.mem_cons_of_mem _ hv)), hs, ht]
    apply V3.ext <;> simp only [add3, cross, sub3, lerp3] <;> ring

theorem planar_normal {vs : List (V3 K)} (hp : Planar vs) : ∀ v ∈ vs, ∀ w ∈ vs, SamePlane (polygonNormal vs) v w := by
  obtain ⟨N, hN, hpl⟩ := hp
  cases vs with
  | nil => intro v hv; cases hv
  | cons v0 rest =>
    obtain ⟨l, hl⟩ := normalFrom_parallel (v0 := v0) hN (v0 :: rest) (by
      intro v hv
      have := hpl v hv v0 (by simp)
      unfold SamePlane at this; unfold dot sub3; simp only; linear_combination this)
    intro v hv w hw
    have := hpl v hv w hw
    simp only [polygonNormal, hl]
    unfold SamePlane smul3 at *; simp only; linear_combination l * this

theorem at3_eq {vs : List (V3 K)} {i : Nat} (h : i < vs.length) : at3 vs i = vs[i] := by
  unfold at3; rw [List.getD_eq_getElem?_getD, List.getElem?_eq_getElem h, Option.getD_some]

theorem at3_mem {vs : List (V3 K)} {i : Nat} (h : i < vs.length) : at3 vs i ∈ vs := by
  rw [at3_eq h]; exact List.getElem_mem h

theorem at2_map {vs : List (V3 K)} {i : Nat} (f : V3 K → V2 K) (h : i < vs.length) : at2 (vs.map f) i = f (at3 vs i) := by
  rw [at3_eq h]; unfold at2; rw [List.getD_eq_getElem?_getD, List.getElem?_map, List.getElem?_eq_getElem h, Option.map_some, Option.getD_some]

theorem mem_at3 {vs : List (V3 K)} {v : V3 K} (h : v ∈ vs) : ∃ i, i < vs.length ∧ at3 vs i = v := by
  obtain ⟨i, hi, he⟩ := List.getElem_of_mem h
  exact ⟨i, hi, by rw [at3_eq hi]; exact he⟩

/-- What the choice of the three vertices can do. `faces` of at most three vertices use the first three; otherwise: -/
theorem choose_spec {vs : List (V3 K)} {n : V3 K} {l : K} {m : Nat} (hlen : vs.length > 3) (hl : IsLength n l) (hm : m ≤ 2) (hn : comp n m ≠ 0)
    (hs : ¬ Singular n m) (hpl : ∀ v ∈ vs, ∀ w ∈ vs, SamePlane n v w) (h01 : at3 vs 0 ≠ at3 vs 1) :
    (∀ i j k, ChooseThree vs (project n l m) (.found i j k) → i = 0 ∧ j = 1 ∧ k < vs.length ∧ NotCollinear3 (at3 vs 0) (at3 vs 1) (at3 vs k)) ∧
    (ChooseThree vs (project n l m) .ub ↔ ∀ v ∈ vs, OnLine3 (at3 vs 0) (at3 vs 1) v) := by
  have hlen2 : 2 ≤ (vs.map (project n l m)).length := by simp; omega
  have m0 := at3_mem (vs := vs) (i := 0) (by omega)
  have m1 := at3_mem (vs := vs) (i := 1) (by omega)
  have hcol : ∀ k, k < vs.length → (orient2d (at2 (vs.map (project n l m)) 0) (at2 (vs.map (project n l m)) 1) (at2 (vs.map (project n l m)) k) = 0 ↔
      OnLine3 (at3 vs 0) (at3 vs 1) (at3 vs k)) := by
    intro k hk
    rw [at2_map _ (by omega), at2_map _ (by omega), at2_map _ hk]
    have := C58_collinear_iff hl hm hn hs (at3 vs 0) (at3 vs 1) (at3 vs k) h01 (hpl _ m0 _ m1) (hpl _ m0 _ (at3_mem hk))
    unfold collinear at this; rwa [decide_eq_true_eq] at this
  unfold ChooseThree
  simp only [hlen, if_true]
  constructor
  · rintro i j k ⟨h1, _⟩
    rw [mem_triplets hlen2] at h1
    obtain ⟨rfl, rfl, _, hk, ho⟩ := h1
    rw [List.length_map] at hk
    exact ⟨rfl, rfl, hk, h01, fun h => ho ((hcol k hk).2 h)⟩
  · unfold ThreeNoncollinear
    constructor
    · intro he v hv
      obtain ⟨k, hk, rfl⟩ := mem_at3 hv
      by_cases hk2 : 2 ≤ k
      · by_contra hc
        have : (0, 1, k) ∈ triplets (vs.map (project n l m)) := (mem_triplets hlen2).2 ⟨rfl, rfl, hk2, by simpa using hk, fun h => hc ((hcol k hk).1 h)⟩
        rw [he] at this; cases this
      · have : k = 0 ∨ k = 1 := by omega
        rcases this with rfl | rfl
        · exact ⟨0, (lerp3_zero _ _).symm⟩
        · exact ⟨1, (lerp3_one _ _).symm⟩
    · intro h
      cases he : triplets (vs.map (project n l m)) with
      | nil => rfl
      | cons t ts =>
        obtain ⟨i, j, k⟩ := t
        have : (i, j, k) ∈ triplets (vs.map (project n l m)) := by rw [he]; simp
        rw [mem_triplets hlen2] at this
        obtain ⟨rfl, rfl, _, hk, ho⟩ := this
        rw [List.length_map] at hk
        exact absurd ((hcol k hk).2 (h _ (at3_mem hk))) ho

theorem exists_max {α : Type*} (f : α → K) : ∀ xs : List α, xs ≠ [] → ∃ x ∈ xs, ∀ y ∈ xs, f y ≤ f x
  | [], h => absurd rfl h
  | [a], _ => ⟨a, by simp, by simp⟩
  | a :: b :: rest, _ => by
    obtain ⟨x, hx, hmax⟩ := exists_max f (b :: rest) (by simp)
    rcases le_total (f a) (f x) with h | h
    · exact ⟨x, List.mem_cons_of_mem _ hx, fun y hy => by rcases List.mem_cons.1 hy with rfl | hy; · exact h
                                                          · exact hmax y hy⟩
    · exact ⟨a, by simp, fun y hy => by rcases List.mem_cons.1 hy with rfl | hy; · exact le_refl _
                                        · exact le_trans (hmax y hy) h⟩

theorem choose_total (vs : List (V3 K)) (f : V3 K → V2 K) : ∃ t, ChooseThree vs f t := by
  unfold ChooseThree
  split
  · by_cases h : triplets (vs.map f) = []
    · exact ⟨.ub, h⟩
    · obtain ⟨⟨i, j, k⟩, hm, hmax⟩ := exists_max (fun t => absK (orient2d (at2 (vs.map f) t.1) (at2 (vs.map f) t.2.1) (at2 (vs.map f) t.2.2))) _ h
      exact ⟨.found i j k, hm, hmax⟩
  · exact ⟨_, rfl⟩

/-- A face as the library handles it: at least three vertices, the first two different, planar, with area, its plane computed by
`compute_polygon_plane_coefficients`, and a normal for which the projection works. -/
structure GoodFace (vs : List (V3 K)) (l : K) : Prop where
  len : 3 ≤ vs.length
  first : at3 vs 0 ≠ at3 vs 1
  planar : Planar vs
  area : (planeCoefficients vs).1 ≠ ⟨0, 0, 0⟩
  length : IsLength (planeCoefficients vs).1 l
  regular : ¬ Singular (planeCoefficients vs).1 (planeCoefficients vs).2.2

theorem OnPlane_planeOf {vs : List (V3 K)} {a b c : V3 K} (h : NotCollinear3 a b c) (hne : vs ≠ []) (hpl : ∀ v ∈ vs, OnPlaneOf a b c v)
    (harea : (planeCoefficients vs).1 ≠ ⟨0, 0, 0⟩) (x : V3 K) :
    OnPlane (planeCoefficients vs).1 (planeCoefficients vs).2.1 x ↔ OnPlaneOf a b c x := by
  obtain ⟨l, hl, hside⟩ := coefficients_side h hne hpl
  have hl0 : l ≠ 0 := by rintro rfl; apply harea; rw [hl]; simp [smul3]
  rw [onPlane_iff, onPlaneOf_iff h, hside]
  simp [hl0]

/-- The three vertices are found, they are not collinear, and they span the plane of the face. -/
theorem good_choice {vs : List (V3 K)} {l : K} (g : GoodFace vs l) {t : Three}
    (ht : ChooseThree vs (project (planeCoefficients vs).1 l (planeCoefficients vs).2.2) t) :
    ∃ k, t = .found 0 1 k ∧ NotCollinear3 (at3 vs 0) (at3 vs 1) (at3 vs k) ∧ ∀ v ∈ vs, OnPlaneOf (at3 vs 0) (at3 vs 1) (at3 vs k) v := by
  have hc := comp_largest g.area
  have hpl : ∀ v ∈ vs, ∀ w ∈ vs, SamePlane (planeCoefficients vs).1 v w := planar_normal g.planar
  have hlen := g.len
  have m0 := at3_mem (vs := vs) (i := 0) (by omega)
  have m1 := at3_mem (vs := vs) (i := 1) (by omega)
  have hnl : ¬ ∀ v ∈ vs, OnLine3 (at3 vs 0) (at3 vs 1) v := by
    intro h
    apply g.area
    cases hvs : vs with
    | nil => rw [hvs] at hlen; simp at hlen
    | cons v0 rest =>
      have h0 : at3 vs 0 = v0 := by rw [hvs]; rfl
      rw [h0] at h
      rw [hvs] at h
      exact normalFrom_line (v0 :: rest) h
  have main : ∃ k, t = .found 0 1 k ∧ k < vs.length ∧ NotCollinear3 (at3 vs 0) (at3 vs 1) (at3 vs k) := by
    by_cases h3 : vs.length > 3
    · obtain ⟨hf, hub⟩ := choose_spec h3 g.length hc.2 hc.1 g.regular hpl g.first
      cases t with
      | ub => exact absurd (hub.1 ht) hnl
      | found i j k =>
        obtain ⟨rfl, rfl, hk, h⟩ := hf i j k ht
        exact ⟨k, rfl, hk, h⟩
    · unfold ChooseThree at ht
      rw [if_neg h3] at ht
      refine ⟨2, ht, by omega, g.first, fun h => hnl (fun v hv => ?_)⟩
      obtain ⟨i, hi, rfl⟩ := mem_at3 hv
      have : i = 0 ∨ i = 1 ∨ i = 2 := by omega
      rcases this with rfl | rfl | rfl
      · exact ⟨0, (lerp3_zero _ _).symm⟩
      · exact ⟨1, (lerp3_one _ _).symm⟩
      · exact h
  obtain ⟨k, rfl, hk, hnc⟩ := main
  refine ⟨k, rfl, hnc, fun v hv => ?_⟩
  -- the normal of the triangle is parallel to the normal of the face
  rw [onPlaneOf_iff hnc, orient3d_side]
  have hkm := at3_mem (vs := vs) hk
  have e1 := hpl _ m1 _ m0
  have e2 := hpl _ hkm _ m0
  have e3 := hpl _ hv _ m0
  obtain ⟨s, hs⟩ := cross_parallel (u := sub3 (at3 vs 1) (at3 vs 0)) (v := sub3 (at3 vs k) (at3 vs 0)) g.area
    (by unfold SamePlane at e1; unfold dot sub3; simp only; linear_combination e1)
    (by unfold SamePlane at e2; unfold dot sub3; simp only; linear_combination e2)
  unfold triNormal
  rw [hs]
  unfold side dot smul3; unfold SamePlane at e3; simp only; linear_combination (-s) * e3

/-- `compute_segment_plane_intersection_type` on any such face, for every segment and every choice the sort may make: no undefined behaviour, and
the code is the geometric classification of the segment against the plane of the face. It therefore agrees with
`compute_segment_plane_intersection`, which the kernel calls for the point.
Missing: other faces (C42_singular_ub, C42_repeated_ub, C42_nonplanar_fails) and rounding. -/
theorem C42_face_partial (vs : List (V3 K)) (l : K) (g : GoodFace vs l) (q r : V3 K) (res : Option PlaneCode)
    (h : Returns vs (planeCoefficients vs).1 l (planeCoefficients vs).2.2 (fun a b c => segmentPlaneType a b c q r) res) :
    ∃ code, res = some code ∧ PlaneCodeSpec (OnPlane (planeCoefficients vs).1 (planeCoefficients vs).2.1) q r code ∧
      (segmentPlane (planeCoefficients vs).1 (planeCoefficients vs).2.1 q r).1 = code := by
  obtain ⟨t, ht, rfl⟩ := h
  obtain ⟨k, rfl, hnc, hpl⟩ := good_choice g ht
  have hne : vs ≠ [] := by rintro rfl; exact absurd g.len (by simp)
  have hpe : OnPlane (planeCoefficients vs).1 (planeCoefficients vs).2.1 = OnPlaneOf (at3 vs 0) (at3 vs 1) (at3 vs k) :=
    funext fun x => propext (OnPlane_planeOf hnc hne hpl g.area x)
  refine ⟨_, rfl, ?_, ?_⟩
  · rw [hpe]; exact (C42_type _ _ _ hnc q r _).1 rfl
  · rw [C42_segment_plane, hpe]; exact (C42_type _ _ _ hnc q r _).1 rfl

/-- The functions always return something (the relation is never empty). -/
theorem C42_face_total {R : Type*} (vs : List (V3 K)) (n : V3 K) (l : K) (m : Nat) (f : V3 K → V3 K → V3 K → R) : ∃ res, Returns vs n l m f res := by
  obtain ⟨t, ht⟩ := choose_total vs (project n l m)
  exact ⟨_, t, ht, rfl⟩

/-- `compute_line_plane_intersection` on such a face: 'p' iff the line lies in the plane, '0' iff it is parallel to it and does not lie in it,
'1' otherwise, and then the point is the only common point of line and plane. The other line test returns the same code. -/
theorem C42_line (vs : List (V3 K)) (l : K) (g : GoodFace vs l) (q r : V3 K) (res : Option (PlaneCode × Option (V3 K) × PlaneCode))
    (h : Returns vs (planeCoefficients vs).1 l (planeCoefficients vs).2.2 (fun a b c =>
      ((linePlane a b c (planeCoefficients vs).1 (planeCoefficients vs).2.1 q r).1,
        (linePlane a b c (planeCoefficients vs).1 (planeCoefficients vs).2.1 q r).2, linePlaneType a b c (planeCoefficients vs).1 q r)) res) :
    ∃ code p, res = some (code, p, code) ∧
      ((code = .inPlane ∧ (∀ x, OnLine3 q r x → OnPlane (planeCoefficients vs).1 (planeCoefficients vs).2.1 x)) ∨
       (code = .none ∧ (∀ x, OnLine3 q r x → ¬ OnPlane (planeCoefficients vs).1 (planeCoefficients vs).2.1 x)) ∨
       (code = .one ∧ ∃ x, p = some x ∧ OnLine3 q r x ∧ OnPlane (planeCoefficients vs).1 (planeCoefficients vs).2.1 x ∧
          ∀ y, OnLine3 q r y → OnPlane (planeCoefficients vs).1 (planeCoefficients vs).2.1 y → y = x)) := by
  obtain ⟨t, ht, rfl⟩ := h
  obtain ⟨k, rfl, hnc, hpl⟩ := good_choice g ht
  have hne : vs ≠ [] := by rintro rfl; exact absurd g.len (by simp)
  obtain ⟨s, hs, hside⟩ := coefficients_side hnc hne hpl
  have hs0 : s ≠ 0 := by rintro rfl; apply g.area; rw [hs]; simp [smul3]
  dsimp only
  generalize (planeCoefficients vs).1 = n at *
  generalize (planeCoefficients vs).2.1 = d at *
  generalize at3 vs 0 = a at *
  generalize at3 vs 1 = b at *
  generalize at3 vs k = c at *
  have hden : dot (sub3 r q) n = side n d r - side n d q := by unfold side dot sub3; ring
  have hnum : d - dot q n = -side n d q := by unfold side; ring
  have hq : orient3d a b c q = 0 ↔ side n d q = 0 := by rw [hside]; simp [hs0]
  have hr : orient3d a b c r = 0 ↔ side n d r = 0 := by rw [hside]; simp [hs0]
  have hdz : dot (sub3 r q) n = 0 ↔ orient3d a b c r = orient3d a b c q := by
    rw [hden, hside, hside]
    constructor
    · intro h
      have : s * (orient3d a b c r - orient3d a b c q) = 0 := by linear_combination -h
      exact sub_eq_zero.1 ((mul_eq_zero.1 this).resolve_left hs0)
    · intro h; rw [h]; ring
  simp only [linePlane, linePlaneType]
  by_cases h0 : orient3d a b c q = 0 ∧ orient3d a b c r = 0
  · refine ⟨.inPlane, Option.none, by simp only [h0, and_self, if_true], Or.inl ⟨rfl, ?_⟩⟩
    rintro x ⟨u, rfl⟩
    rw [onPlane_iff, side_lerp3, hq.1 h0.1, hr.1 h0.2]; ring
  · by_cases h1 : dot (sub3 r q) n = 0
    · have hqr := hdz.1 h1
      have hq0 : orient3d a b c q ≠ 0 := fun h => h0 ⟨h, hqr.trans h⟩
      have hsame : (orient3d a b c r < 0 ∧ orient3d a b c q < 0) ∨ (orient3d a b c r > 0 ∧ orient3d a b c q > 0) := by
        rw [hqr]
        rcases lt_or_gt_of_ne hq0 with h | h
        · left; exact ⟨h, h⟩
        · right; exact ⟨h, h⟩
      refine ⟨.none, Option.none, by simp only [h0, if_false, hsame, h1, and_self, if_true], Or.inr (Or.inl ⟨rfl, ?_⟩)⟩
      rintro x ⟨u, rfl⟩ hx
      rw [onPlane_iff, side_lerp3] at hx
      rw [hden] at h1
      rw [h1, mul_zero, add_zero] at hx
      exact hq0 (hq.2 hx)
    · have huniq : ∀ u, OnPlane n d (lerp3 q r u) ↔ u = (d - dot q n) / dot (sub3 r q) n := by
        intro u
        rw [onPlane_iff, side_lerp3, eq_div_iff h1, hnum, hden]
        constructor <;> intro h <;> linear_combination h
      refine ⟨.one, some (along q r ((d - dot q n) / dot (sub3 r q) n)), by simp only [h0, if_false, h1, and_false],
        Or.inr (Or.inr ⟨rfl, _, rfl, ⟨_, rfl⟩, (huniq _).2 rfl, ?_⟩)⟩
      rintro y ⟨u, rfl⟩ hy
      rw [(huniq u).1 hy]; rfl

/-! ## Where it goes wrong -/

/-- Undefined behaviour for a proper planar face: for the parallelogram of C58, the choice of three vertices always takes the front of an empty
list, for every segment. -/
theorem C42_singular_ub (q r : V3 ℝ) (res : Option PlaneCode) :
    Returns (badQuad ℝ) (planeCoefficients (badQuad ℝ)).1 (Real.sqrt 104) (planeCoefficients (badQuad ℝ)).2.2
      (fun a b c => segmentPlaneType a b c q r) res ↔ res = Option.none := by
  obtain ⟨_, _, hcol⟩ := C58_singular_example
  generalize (planeCoefficients (badQuad ℝ)).1 = n at *
  generalize (planeCoefficients (badQuad ℝ)).2.2 = m at *
  have hlen : (badQuad ℝ).length = 4 := rfl
  have hempty : triplets ((badQuad ℝ).map (project n (Real.sqrt 104) m)) = [] := by
    cases he : triplets ((badQuad ℝ).map (project n (Real.sqrt 104) m)) with
    | nil => rfl
    | cons t ts =>
      obtain ⟨i, j, k⟩ := t
      have : (i, j, k) ∈ triplets ((badQuad ℝ).map (project n (Real.sqrt 104) m)) := by rw [he]; simp
      rw [mem_triplets (by simp [hlen])] at this
      obtain ⟨rfl, rfl, _, hk, ho⟩ := this
      rw [List.length_map] at hk
      rw [at2_map _ (by simp [hlen]), at2_map _ (by simp [hlen]), at2_map _ hk] at ho
      have := hcol _ (at3_mem (i := 0) (by simp [hlen])) _ (at3_mem (i := 1) (by simp [hlen])) _ (at3_mem hk)
      unfold collinear at this
      rw [decide_eq_true_eq] at this; exact absurd this ho
  have hch : ∀ t, ChooseThree (badQuad ℝ) (project n (Real.sqrt 104) m) t ↔ t = .ub := by
    intro t
    unfold ChooseThree
    rw [if_pos (by simp [hlen])]
    cases t with
    | ub => simp [ThreeNoncollinear, hempty]
    | found i j k => simp [ThreeNoncollinear, hempty]
  constructor
  · rintro ⟨t, ht, rfl⟩
    rw [(hch t).1 ht]
  · rintro rfl
    exact ⟨.ub, (hch _).2 rfl, rfl⟩

/-- A face whose first two vertices coincide: undefined behaviour as well (any projection). -/
theorem C42_repeated_ub (vs : List (V3 K)) (n : V3 K) (l : K) (m : Nat) (hlen : vs.length > 3) (h01 : at3 vs 0 = at3 vs 1) (q r : V3 K) :
    Returns vs n l m (fun a b c => segmentPlaneType a b c q r) Option.none := by
  refine ⟨.ub, ?_, rfl⟩
  unfold ChooseThree
  rw [if_pos hlen]
  unfold ThreeNoncollinear
  have hlen2 : 2 ≤ (vs.map (project n l m)).length := by simp; omega
  cases he : triplets (vs.map (project n l m)) with
  | nil => rfl
  | cons t ts =>
    obtain ⟨i, j, k⟩ := t
    have : (i, j, k) ∈ triplets (vs.map (project n l m)) := by rw [he]; simp
    rw [mem_triplets hlen2] at this
    obtain ⟨rfl, rfl, _, hk, ho⟩ := this
    rw [at2_map _ (by omega), at2_map _ (by omega), h01] at ho
    exact absurd (by unfold orient2d; ring) ho

/-- A face that is not planar: the two functions can disagree. Here the exact test says that the segment crosses the plane, and the kernel then
asks for a point although the segment is strictly on one side of the computed plane. -/
theorem C42_nonplanar_fails : ∃ (vs : List (V3 ℚ)) (q r : V3 ℚ) (n : V3 ℚ) (d l : ℚ), vs.length = 4 ∧ planeCoefficients vs = (n, d, 2) ∧ IsLength n l ∧
    Returns vs n l 2 (fun a b c => segmentPlaneType a b c q r) (some .one) ∧ (segmentPlane n d q r).1 = .none := by
  have ht : triplets (([⟨0, 0, 0⟩, ⟨1, 0, 1⟩, ⟨1, 1, 0⟩, ⟨0, 1, 1⟩] : List (V3 ℚ)).map (project ⟨0, 0, 2⟩ 2 2)) = [(0, 1, 2), (0, 1, 3)] := by
    decide +kernel
  refine ⟨[⟨0, 0, 0⟩, ⟨1, 0, 1⟩, ⟨1, 1, 0⟩, ⟨0, 1, 1⟩], ⟨1, 0, 1/2⟩, ⟨1, 0, 3/2⟩, ⟨0, 0, 2⟩, 0, 2, rfl, by decide +kernel, ⟨by norm_num, by norm_num⟩,
    ⟨.found 0 1 2, ?_, ?_⟩, by decide +kernel⟩
  · unfold ChooseThree
    rw [if_pos (by simp)]
    unfold ThreeNoncollinear
    rw [ht]
    decide +kernel
  · decide +kernel

/-- The hypotheses on the face are met by an oblique square, and all five codes occur. -/
theorem C42_demo : GoodFace ([⟨0, 0, 0⟩, ⟨2, 1, -2⟩, ⟨3, 3, 0⟩, ⟨1, 2, 2⟩] : List (V3 ℚ)) 18 ∧
    (segmentPlane (⟨0, 0, 1⟩ : V3 ℚ) 1 ⟨0, 0, 0⟩ ⟨2, 2, 2⟩) = (.one, some ⟨1, 1, 1⟩) ∧
    (segmentPlane (⟨0, 0, 1⟩ : V3 ℚ) 1 ⟨0, 0, 1⟩ ⟨2, 2, 2⟩) = (.q, some ⟨0, 0, 1⟩) ∧
    (segmentPlane (⟨0, 0, 1⟩ : V3 ℚ) 1 ⟨0, 0, 0⟩ ⟨2, 2, 1⟩) = (.r, some ⟨2, 2, 1⟩) ∧
    (segmentPlane (⟨0, 0, 1⟩ : V3 ℚ) 1 ⟨0, 0, 0⟩ ⟨2, 2, 1/2⟩).1 = .none ∧
    (segmentPlane (⟨0, 0, 1⟩ : V3 ℚ) 1 ⟨0, 0, 1⟩ ⟨2, 2, 1⟩).1 = .inPlane := by
  refine ⟨?_, by decide +kernel, by decide +kernel, by decide +kernel, by decide +kernel, by decide +kernel⟩
  have hp : planeCoefficients ([⟨0, 0, 0⟩, ⟨2, 1, -2⟩, ⟨3, 3, 0⟩, ⟨1, 2, 2⟩] : List (V3 ℚ)) = (⟨12, -12, 6⟩, 0, 0) := by decide +kernel
  refine ⟨by simp, by decide +kernel, ⟨⟨2, -2, 1⟩, by decide +kernel, ?_⟩, by rw [hp]; decide +kernel, ?_, ?_⟩
  · have : ∀ v ∈ ([⟨0, 0, 0⟩, ⟨2, 1, -2⟩, ⟨3, 3, 0⟩, ⟨1, 2, 2⟩] : List (V3 ℚ)), v.x * 2 + v.y * (-2) + v.z * 1 = 0 := by decide +kernel
    intro v hv w hw
    unfold SamePlane; simp only; rw [this v hv, this w hw]
  · rw [hp]; exact ⟨by norm_num, by norm_num⟩
  · rw [hp]
    rintro (⟨_, h⟩ | ⟨h, _⟩)
    · norm_num at h
    · simp at h

end Mcut.Geom
