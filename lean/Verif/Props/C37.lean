import Verif.Lemmas.C37

/-!
# C37 — bounding boxes are least upper bounds independent of merge order
-/
namespace Mcut.Box
variable {α : Type*} [LinearOrder α]

/-- The box of a non-empty list of finite points contains all of them, and every box containing all of them includes it. -/
theorem C37_points_least (bot top : α) (ps : List (V3 α)) (hne : ps ≠ []) (hr : ∀ p ∈ ps, InRange bot top p) :
    (∀ p ∈ ps, Mem p (boxOfPoints bot top ps)) ∧
    (∀ d, (∀ p ∈ ps, Mem p d) → Sub (boxOfPoints bot top ps) d) := by
  refine ⟨((foldl_point_sub ps _ _).1 (sub_refl _)).2, fun d hd => ?_⟩
  rw [boxOfPoints, foldl_point_sub]
  obtain ⟨p, hp⟩ := List.exists_mem_of_ne_nil ps hne
  exact ⟨default_sub bot top d ⟨p, hr p hp, hd p hp⟩, hd⟩

/-- Merging boxes gives the least box including all of them. -/
theorem C37_boxes_least (b : BBox α) (bs : List (BBox α)) :
    Sub b (bs.foldl (fun b c => b.expandBox c) b) ∧
    (∀ c ∈ bs, Sub c (bs.foldl (fun b c => b.expandBox c) b)) ∧
    (∀ d, Sub b d → (∀ c ∈ bs, Sub c d) → Sub (bs.foldl (fun b c => b.expandBox c) b) d) := by
  have h := (foldl_box_sub bs b _).1 (sub_refl _)
  exact ⟨h.1, h.2, fun d h1 h2 => (foldl_box_sub bs b d).2 ⟨h1, h2⟩⟩

/-- Order independence: the vertices of a face (or of a mesh) may be visited in any order and any number of times. -/
theorem C37_order_independent (bot top : α) (ps qs : List (V3 α)) (h : ∀ p, p ∈ ps ↔ p ∈ qs) :
    boxOfPoints bot top ps = boxOfPoints bot top qs := by
  apply eq_of_sub_iff
  intro d
  simp only [boxOfPoints, foldl_point_sub, h]

/-- Thread independence of the mesh box: however the vertices are cut into blocks and in whatever order the workers merge their local boxes
into the freshly initialised shared box, the result is the box of all vertices. -/
theorem C37_merge_schedule_independent (bot top : α) (blocks : List (List (V3 α))) (ps : List (V3 α))
    (hsame : ∀ p, p ∈ blocks.flatten ↔ p ∈ ps) :
    mergeBlocks bot top (BBox.default bot top) blocks = boxOfPoints bot top ps := by
  have hdef : Sub (BBox.default bot top) (mergeBlocks bot top (BBox.default bot top) blocks) := by
    have : mergeBlocks bot top (BBox.default bot top) blocks =
        (blocks.map (boxOfPoints bot top)).foldl (fun b c => b.expandBox c) (BBox.default bot top) := by
      unfold mergeBlocks; rw [List.foldl_map]
    rw [this]; exact ((foldl_box_sub _ _ _).1 (sub_refl _)).1
  have hdef' : Sub (BBox.default bot top) (boxOfPoints bot top ps) := ((foldl_point_sub ps _ _).1 (sub_refl _)).1
  apply sub_antisymm
  · rw [mergeBlocks_sub bot top _ _ _ hdef']
    exact ⟨hdef', fun p hp => ((foldl_point_sub ps _ _).1 (sub_refl _)).2 p ((hsame p).1 hp)⟩
  · rw [boxOfPoints, foldl_point_sub]
    exact ⟨hdef, fun p hp => ((mergeBlocks_sub bot top _ blocks _ hdef).1 (sub_refl _)).2 p ((hsame p).2 hp)⟩

/-- Two non-empty boxes are reported as intersecting exactly when they share a point. -/
theorem C37_intersect_iff (a b : BBox α) (ha : ∃ p, Mem p a) (hb : ∃ p, Mem p b) :
    intersect a b = true ↔ ∃ p, Mem p a ∧ Mem p b := by
  obtain ⟨p, hp⟩ := ha
  obtain ⟨q, hq⟩ := hb
  simp only [Mem] at *
  simp only [intersect, Bool.and_eq_true, decide_eq_true_eq]
  constructor
  · rintro ⟨⟨⟨h1, h2⟩, ⟨h3, h4⟩⟩, ⟨h5, h6⟩⟩
    refine ⟨⟨max a.lo.x b.lo.x, max a.lo.y b.lo.y, max a.lo.z b.lo.z⟩, ?_, ?_⟩
    · exact ⟨le_max_left _ _, max_le (hp.1.trans hp.2.1) h2, le_max_left _ _, max_le (hp.2.2.1.trans hp.2.2.2.1) h4, le_max_left _ _,
        max_le (hp.2.2.2.2.1.trans hp.2.2.2.2.2) h6⟩
    · exact ⟨le_max_right _ _, max_le h1 (hq.1.trans hq.2.1), le_max_right _ _, max_le h3 (hq.2.2.1.trans hq.2.2.2.1), le_max_right _ _,
        max_le h5 (hq.2.2.2.2.1.trans hq.2.2.2.2.2)⟩
  · rintro ⟨r, h, h'⟩
    exact ⟨⟨⟨h.1.trans h'.2.1, h'.1.trans h.2.1⟩, ⟨h.2.2.1.trans h'.2.2.2.1, h'.2.2.1.trans h.2.2.2.1⟩⟩,
      ⟨h.2.2.2.2.1.trans h'.2.2.2.2.2, h'.2.2.2.2.1.trans h.2.2.2.2.2⟩⟩

/-- The test is symmetric and monotone: growing a box never loses an intersection. -/
theorem C37_intersect_symm_mono (a b c : BBox α) :
    intersect a b = intersect b a ∧ (Sub a c → intersect a b = true → intersect c b = true) := by
  constructor
  · rw [Bool.eq_iff_iff]; simp only [intersect, Bool.and_eq_true, decide_eq_true_eq, ge_iff_le]; tauto
  · simp only [intersect, Bool.and_eq_true, decide_eq_true_eq, ge_iff_le, Sub]
    rintro ⟨h1, h2, h3, h4, h5, h6⟩ ⟨⟨⟨i1, i2⟩, i3, i4⟩, i5, i6⟩
    exact ⟨⟨⟨h1.trans i1, i2.trans h2⟩, h3.trans i3, i4.trans h4⟩, h5.trans i5, i6.trans h6⟩

/-- Non-vacuity: a concrete point list, its box, two touching boxes and two disjoint boxes. -/
example : boxOfPoints (-100) 100 [(⟨1, 5, 2⟩ : V3 Int), ⟨3, 0, 2⟩, ⟨2, 2, 9⟩] = ⟨⟨1, 0, 2⟩, ⟨3, 5, 9⟩⟩ ∧
    intersect (⟨⟨0, 0, 0⟩, ⟨1, 1, 1⟩⟩ : BBox Int) ⟨⟨1, 1, 1⟩, ⟨2, 2, 2⟩⟩ = true ∧
    intersect (⟨⟨0, 0, 0⟩, ⟨1, 1, 1⟩⟩ : BBox Int) ⟨⟨0, 2, 0⟩, ⟨1, 3, 1⟩⟩ = false := by decide

example : ∀ p ∈ [(⟨1, 5, 2⟩ : V3 Int), ⟨3, 0, 2⟩], InRange (-100) 100 p := by simp [InRange]

end Mcut.Box
