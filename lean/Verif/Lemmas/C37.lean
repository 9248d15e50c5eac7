import Verif.Spec.C37

/-! Helper lemmas for `Props/C37.lean`. -/
namespace Mcut.Box
variable {α : Type*} [LinearOrder α]

theorem mcMin_eq (a b : α) : mcMin a b = min a b := by
  unfold mcMin
  split
  · rename_i h; rw [min_eq_right (le_of_lt h)]
  · rename_i h; rw [min_eq_left (not_lt.1 h)]

theorem mcMax_eq (a b : α) : mcMax a b = max a b := by
  unfold mcMax
  split
  · rename_i h; rw [max_eq_right (le_of_lt h)]
  · rename_i h; rw [max_eq_left (not_lt.1 h)]

theorem sub_refl (a : BBox α) : Sub a a := by simp [Sub]

theorem sub_antisymm {a b : BBox α} (h : Sub a b) (h' : Sub b a) : a = b := by
  obtain ⟨⟨a1, a2, a3⟩, ⟨a4, a5, a6⟩⟩ := a
  obtain ⟨⟨b1, b2, b3⟩, ⟨b4, b5, b6⟩⟩ := b
  simp only [Sub] at h h'
  simp only [BBox.mk.injEq, V3.mk.injEq]
  exact ⟨⟨le_antisymm h'.1 h.1, le_antisymm h'.2.2.1 h.2.2.1, le_antisymm h'.2.2.2.2.1 h.2.2.2.2.1⟩,
    ⟨le_antisymm h.2.1 h'.2.1, le_antisymm h.2.2.2.1 h'.2.2.2.1, le_antisymm h.2.2.2.2.2 h'.2.2.2.2.2⟩⟩

theorem expandBox_sub (b c d : BBox α) : Sub (b.expandBox c) d ↔ Sub b d ∧ Sub c d := by
  simp only [Sub, BBox.expandBox, compwiseMin, compwiseMax, mcMin_eq, mcMax_eq, le_min_iff, max_le_iff]
  tauto

theorem sub_expandBox_left (b c : BBox α) : Sub b (b.expandBox c) := ((expandBox_sub b c _).1 (sub_refl _)).1

theorem sub_expandBox_right (b c : BBox α) : Sub c (b.expandBox c) := ((expandBox_sub b c _).1 (sub_refl _)).2

theorem expandPoint_sub (b : BBox α) (p : V3 α) (d : BBox α) : Sub (b.expandPoint p) d ↔ Sub b d ∧ Mem p d := by
  simp only [Sub, Mem, BBox.expandPoint, compwiseMin, compwiseMax, mcMin_eq, mcMax_eq, le_min_iff, max_le_iff]
  tauto

theorem foldl_point_sub (ps : List (V3 α)) (b d : BBox α) :
    Sub (ps.foldl (fun b p => b.expandPoint p) b) d ↔ Sub b d ∧ ∀ p ∈ ps, Mem p d := by
  induction ps generalizing b with
  | nil => simp
  | cons p ps ih =>
    rw [List.foldl_cons, ih, expandPoint_sub]
    simp only [List.mem_cons, forall_eq_or_imp]
    tauto

theorem foldl_box_sub (bs : List (BBox α)) (b d : BBox α) :
    Sub (bs.foldl (fun b c => b.expandBox c) b) d ↔ Sub b d ∧ ∀ c ∈ bs, Sub c d := by
  induction bs generalizing b with
  | nil => simp
  | cons p ps ih =>
    rw [List.foldl_cons, ih, expandBox_sub]
    simp only [List.mem_cons, forall_eq_or_imp]
    tauto

theorem eq_of_sub_iff {a b : BBox α} (h : ∀ d, Sub a d ↔ Sub b d) : a = b :=
  sub_antisymm ((h b).2 (sub_refl b)) ((h a).1 (sub_refl a))

theorem default_sub (bot top : α) (b : BBox α) (h : ∃ p, InRange bot top p ∧ Mem p b) : Sub (BBox.default bot top) b := by
  obtain ⟨p, hr, hm⟩ := h
  simp only [InRange, Mem, Sub, BBox.default] at *
  exact ⟨hm.1.trans hr.2.1, hr.1.trans hm.2.1, hm.2.2.1.trans hr.2.2.2.1, hr.2.2.1.trans hm.2.2.2.1,
    hm.2.2.2.2.1.trans hr.2.2.2.2.2, hr.2.2.2.2.1.trans hm.2.2.2.2.2⟩

theorem mergeBlocks_sub (bot top : α) (shared : BBox α) (blocks : List (List (V3 α))) (d : BBox α)
    (hd : Sub (BBox.default bot top) d) :
    Sub (mergeBlocks bot top shared blocks) d ↔ Sub shared d ∧ ∀ p ∈ blocks.flatten, Mem p d := by
  have : mergeBlocks bot top shared blocks =
      (blocks.map (boxOfPoints bot top)).foldl (fun b c => b.expandBox c) shared := by
    unfold mergeBlocks; rw [List.foldl_map]
  rw [this, foldl_box_sub]
  simp only [List.mem_map, forall_exists_index, and_imp, forall_apply_eq_imp_iff₂, boxOfPoints, foldl_point_sub, List.mem_flatten]
  constructor
  · rintro ⟨h, h'⟩; exact ⟨h, fun p l hl hp => (h' l hl).2 p hp⟩
  · rintro ⟨h, h'⟩; exact ⟨h, fun l hl => ⟨hd, fun p hp => h' p l hl hp⟩⟩

theorem mem_mono {p : V3 α} {a b : BBox α} (h : Sub a b) (hp : Mem p a) : Mem p b := by
  simp only [Sub, Mem] at *
  exact ⟨h.1.trans hp.1, hp.2.1.trans h.2.1, h.2.2.1.trans hp.2.2.1, hp.2.2.2.1.trans h.2.2.2.1,
    h.2.2.2.2.1.trans hp.2.2.2.2.1, hp.2.2.2.2.2.trans h.2.2.2.2.2⟩

end Mcut.Box
