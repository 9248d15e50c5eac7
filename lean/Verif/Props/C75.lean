import Verif.Lemmas.C75Demo

/-!
# C75: enclosure

When the surfaces do not intersect, `mcDispatch` can report whether one mesh encloses the other. The code computes the winding number of one vertex of one mesh with respect to the other.
-/
namespace Mcut.Winding
open Mcut.Hmesh Mcut.Dispatch

/-- C75, the meaning of the winding number: for every watertight mesh, every point that is not on its surface and every ray from the point that meets no side of a triangle, the winding number is the number of times
the ray leaves through the surface minus the number of times it enters. -/
theorem C75_ray {b : Body} (hp : Proper b) (hc : b.mesh.isClosed = true) {q d : Vec} (h : ¬OnSurface b q) (g : Generic b q d) : b.winding q = crossings b q d :=
  ray_count hp hc h g

/-- C75, such rays exist. -/
theorem C75_generic {b : Body} {q : Vec} (h : ¬OnSurface b q) : ∃ d, Generic b q d := generic_some h

/-- C75, the test with the tolerance `1e-7` is exact: it succeeds exactly for the enclosed points. -/
theorem C75_test {b : Body} (hp : Proper b) (hc : b.mesh.isClosed = true) {q : Vec} (h : ¬OnSurface b q) : isInside (b.winding q) = true ↔ Inside b q :=
  isInside_iff hp hc h

/-- C75, the winding number is the same at both ends of every path that does not touch the surface. -/
theorem C75_path {b : Body} (hp : Proper b) (hc : b.mesh.isClosed = true) {q : ℝ → Vec} (hx : ContinuousOn (fun s => (q s).x) (Set.Icc 0 1)) (hy : ContinuousOn (fun s => (q s).y) (Set.Icc 0 1))
    (hz : ContinuousOn (fun s => (q s).z) (Set.Icc 0 1)) (h : ∀ s ∈ Set.Icc (0:ℝ) 1, ¬OnSurface b (q s)) : b.winding (q 0) = b.winding (q 1) :=
  winding_path hp hc ⟨hx, hy, hz⟩ h

/-- C75, one vertex is enough: if a connected mesh has no point in common with a watertight mesh then all of it is enclosed exactly if its first vertex is. -/
theorem C75_one_vertex {a b : Body} (ha : Proper a) (hj : Joined a) (hp : Proper b) (hc : b.mesh.isClosed = true) (hd : ∀ q, ¬(OnSurface a q ∧ OnSurface b q)) :
    EnclosedBy a b ↔ isInside (b.winding (a.mesh.pos 0)) = true := enclosed_iff ha hj hp hc hd

/-- C75, an enclosed mesh has a strictly smaller box. -/
theorem C75_box {a b : Body} (ha : Proper a) (hj : Joined a) (hp : Proper b) {e e' : ℝ} (A : BoxOf e a) (B : BoxOf e' b) (h : EnclosedBy a b) :
    b.box.lo.x + e' < a.box.lo.x + e ∧ a.box.hi.x - e < b.box.hi.x - e' ∧ b.box.lo.y + e' < a.box.lo.y + e ∧ a.box.hi.y - e < b.box.hi.y - e' ∧
    b.box.lo.z + e' < a.box.lo.z + e ∧ a.box.hi.z - e < b.box.hi.z - e' := enclosed_box ha hj hp A B h

/-- What is still to be added to the total. -/
def Adder.pending : Adder → ℝ
  | .start x => x
  | .loaded x _ => x
  | .done => 0

theorem adding_step {s t : Adding} (h : Adding.Step s t) : t.total + (t.threads.map Adder.pending).sum = s.total + (s.threads.map Adder.pending).sum := by
  cases h <;> simp [Adder.pending] <;> ring

theorem blockSum_eq (cdt : Nat → List Nat) (m : Mesh Vec) (q : Vec) (fs : List Nat) : blockSum cdt m q fs = (fs.map (onFace cdt m q)).sum := by
  unfold blockSum; rw [foldl_add, zero_add]

/-- C75, helper threads: for every division of the faces into blocks and every interleaving of the additions (failed and spuriously failed exchanges included) the result is that of the sequential computation. -/
theorem C75_parallel {cdt : Nat → List Nat} {m : Mesh Vec} {q : Vec} {w : ℝ} (h : IsWindingNumber cdt m q w) : w = windingNumber cdt m q := by
  obtain ⟨blocks, hb, run⟩ := h
  have inv : ∀ {s t : Adding}, Relation.ReflTransGen Adding.Step s t → t.total + (t.threads.map Adder.pending).sum = s.total + (s.threads.map Adder.pending).sum := by
    intro s t h
    induction h with
    | refl => rfl
    | tail _ h ih => rw [adding_step h, ih]
  have e := inv run
  simp only [List.map_map, zero_add] at e
  have e1 : (blocks.map (Adder.pending ∘ fun _ => Adder.done)).sum = 0 := by
    clear e run hb
    induction blocks with
    | nil => simp
    | cons x l ih => simp only [List.map_cons, List.sum_cons, ih]; simp [Adder.pending]
  have e2 : (blocks.map (Adder.pending ∘ fun fs => Adder.start (blockSum cdt m q fs))).sum = blockSum cdt m q blocks.flatten := by
    clear e run hb e1
    induction blocks with
    | nil => simp [blockSum]
    | cons x l ih =>
      simp only [List.map_cons, List.sum_cons, ih, List.flatten_cons]
      rw [blockSum_eq, blockSum_eq, List.map_append, List.sum_append, Function.comp, Adder.pending, blockSum_eq]
  rw [e1, e2, hb, add_zero] at e
  exact e

/-- C75, `MC_DISPATCH_INTERSECTION_TYPE_INSIDE_CUTMESH` is reported exactly if the source mesh is enclosed by the cut mesh. The box of the cut mesh may be enlarged (`build_oibvh` does so by the constant of perturbation). -/
theorem C75_inside_cut {src cut : Body} (hs : Proper src) (hk : Proper cut) (js : Joined src) (hd : ∀ q, ¬(OnSurface src q ∧ OnSurface cut q)) {e : ℝ} (he : 0 ≤ e) (A : BoxOf 0 src) (B : BoxOf e cut) :
    intersectionType src cut = .insideCut ↔ EnclosedBy src cut := by
  constructor
  · intro h
    unfold intersectionType enclosureType enclosure at h
    simp only at h
    by_cases hkc : cut.mesh.isClosed = true
    · rw [enclosed_iff hs js hk hkc hd]
      by_cases hsc : src.mesh.isClosed = true
      · simp only [hkc, hsc, Bool.not_true, Bool.and_self, Bool.false_or, if_true] at h
        split at h
        · cases h
        · split at h
          · split at h
            · cases h
            · split at h
              · rename_i h3; exact h3
              · cases h
          · split at h
            · rename_i h2; exact h2
            · split at h <;> cases h
      · simp only [hkc, Bool.not_eq_true] at h hsc
        simp only [hsc, Bool.not_true, Bool.not_false, Bool.and_false, Bool.false_or, Bool.false_and, Bool.false_eq_true, if_false] at h
        split at h
        · cases h
        · split at h
          · rename_i h1; exact h1
          · cases h
    · exfalso
      rw [Bool.not_eq_true] at hkc
      by_cases hsc : src.mesh.isClosed = true
      · simp only [hkc, hsc, Bool.not_true, Bool.not_false, Bool.and_true, Bool.false_or, Bool.and_false, Bool.false_eq_true, if_false, if_true] at h
        split at h
        · cases h
        · split at h <;> cases h
      · rw [Bool.not_eq_true] at hsc
        simp [hkc, hsc] at h
  · intro h
    have hkc := enclosed_closed hs js h
    have first := (enclosed_iff hs js hk hkc hd).1 h
    have ov := (enclosed_overlap hs js hk (le_refl _) he A B h).1
    have sm : ¬ diagonal src.box > diagonal cut.box := by have := enclosed_smaller hs js hk he A B h; linarith
    unfold intersectionType enclosureType enclosure
    simp only
    by_cases hsc : src.mesh.isClosed = true
    · simp [hkc, hsc, ov, sm, first]
    · rw [Bool.not_eq_true] at hsc
      simp [hkc, hsc, ov, first]

/-- C75, `MC_DISPATCH_INTERSECTION_TYPE_INSIDE_SOURCEMESH` is reported exactly if the cut mesh is enclosed by the source mesh, provided that not both meshes are watertight or the source mesh has the larger box (the
box of the cut mesh counted with its enlargement). Otherwise see `C75_smaller` and `C75_enclosed_missed_fails`. -/
theorem C75_inside_source_partial {src cut : Body} (hs : Proper src) (hk : Proper cut) (jk : Joined cut) (hd : ∀ q, ¬(OnSurface src q ∧ OnSurface cut q)) {e : ℝ} (he : 0 ≤ e) (A : BoxOf 0 src) (B : BoxOf e cut)
    (hl : src.mesh.isClosed = true → cut.mesh.isClosed = true → diagonal src.box > diagonal cut.box) :
    intersectionType src cut = .insideSrc ↔ EnclosedBy cut src := by
  have hd' : ∀ q, ¬(OnSurface cut q ∧ OnSurface src q) := fun q h => hd q ⟨h.2, h.1⟩
  constructor
  · intro h
    unfold intersectionType enclosureType enclosure at h
    simp only at h
    by_cases hsc : src.mesh.isClosed = true
    · rw [enclosed_iff hk jk hs hsc hd']
      by_cases hkc : cut.mesh.isClosed = true
      · have lg := hl hsc hkc
        simp only [hkc, hsc, Bool.not_true, Bool.and_self, Bool.false_or, if_true, lg, decide_true] at h
        split at h
        · cases h
        · split at h
          · rename_i h1; exact h1
          · split at h <;> cases h
      · rw [Bool.not_eq_true] at hkc
        simp only [hkc, hsc, Bool.not_true, Bool.not_false, Bool.and_true, Bool.false_or, Bool.and_false, Bool.false_eq_true, if_false, if_true] at h
        split at h
        · cases h
        · split at h
          · rename_i h1; exact h1
          · cases h
    · exfalso
      rw [Bool.not_eq_true] at hsc
      by_cases hkc : cut.mesh.isClosed = true
      · simp only [hkc, hsc, Bool.not_true, Bool.not_false, Bool.and_false, Bool.false_or, Bool.false_and, Bool.false_eq_true, if_false] at h
        split at h
        · cases h
        · split at h <;> cases h
      · rw [Bool.not_eq_true] at hkc
        simp [hkc, hsc] at h
  · intro h
    have hsc := enclosed_closed hk jk h
    have first := (enclosed_iff hk jk hs hsc hd').1 h
    have ov := (enclosed_overlap hk jk hs he (le_refl _) B A h).2
    unfold intersectionType enclosureType enclosure
    simp only
    by_cases hkc : cut.mesh.isClosed = true
    · simp [hkc, hsc, ov, hl hsc hkc, first]
    · rw [Bool.not_eq_true] at hkc
      simp [hkc, hsc, ov, first]

/-- C75, both meshes watertight and the box of the cut mesh at least as large: the code then tests the first vertex of the source mesh against the *source mesh itself*, so that the answer does not depend on
where the cut mesh is. -/
theorem C75_smaller {src cut : Body} (hs : Proper src) (hk : Proper cut) (js : Joined src) (hd : ∀ q, ¬(OnSurface src q ∧ OnSurface cut q))
    (cs : src.mesh.isClosed = true) (ck : cut.mesh.isClosed = true) (hl : ¬diagonal src.box > diagonal cut.box) (ho : Box.intersect src.box cut.box = true) :
    intersectionType src cut = .insideSrc ↔ ¬EnclosedBy src cut ∧ isInside (src.winding (src.mesh.pos 0)) = true := by
  rw [enclosed_iff hs js hk ck hd]
  unfold intersectionType enclosureType enclosure
  simp only [cs, ck, ho, hl, decide_false, Bool.not_true, Bool.and_self, Bool.false_or, Bool.false_eq_true, if_false, if_true]
  cases isInside (cut.winding (src.mesh.pos 0)) <;> cases isInside (src.winding (src.mesh.pos 0)) <;> simp

/-- C75: `MC_DISPATCH_INTERSECTION_TYPE_STANDARD` (the surfaces intersect) is never reported by this test. -/
theorem C75_not_standard (src cut : Body) : intersectionType src cut ≠ .standard := by
  unfold intersectionType enclosureType
  split
  · intro h; cases h
  · split
    · split
      · split <;> intro h <;> cases h
      · split
        · split <;> intro h <;> cases h
        · intro h; cases h
    · split <;> split <;> intro h <;> cases h

/-- C75, `MC_DISPATCH_INTERSECTION_TYPE_NONE` is reported exactly if neither mesh encloses the other one, under the hypotheses of `C75_inside_source_partial`. -/
theorem C75_neither_partial {src cut : Body} (hs : Proper src) (hk : Proper cut) (js : Joined src) (jk : Joined cut) (hd : ∀ q, ¬(OnSurface src q ∧ OnSurface cut q)) {e : ℝ} (he : 0 ≤ e) (A : BoxOf 0 src) (B : BoxOf e cut)
    (hl : src.mesh.isClosed = true → cut.mesh.isClosed = true → diagonal src.box > diagonal cut.box) :
    intersectionType src cut = .none ↔ ¬EnclosedBy src cut ∧ ¬EnclosedBy cut src := by
  rw [← C75_inside_cut hs hk js hd he A B, ← C75_inside_source_partial hs hk jk hd he A B hl]
  have := C75_not_standard src cut
  revert this
  cases intersectionType src cut <;> simp

/-- C75, without a watertight mesh, or if the boxes do not meet, nothing is enclosed and nothing is reported. -/
theorem C75_none {src cut : Body} (h : (src.mesh.isClosed = false ∧ cut.mesh.isClosed = false) ∨ Box.intersect src.box cut.box = false) : intersectionType src cut = .none := by
  unfold intersectionType enclosureType enclosure
  rcases h with ⟨h1, h2⟩ | h
  · simp [h1, h2]
  · simp [h]

/-- C75, what is missed: both meshes are watertight, the cut mesh is enclosed by the source mesh and nothing touches, but the box of the cut mesh, which `build_oibvh` enlarges, is larger than that of the source
mesh. `mcDispatch` then tests the first vertex of the source mesh against the source mesh itself and reports `MC_DISPATCH_INTERSECTION_TYPE_NONE` (preproc.cpp:1674 uses `source_hmesh` where `meshA` is meant). -/
theorem C75_enclosed_missed_fails : ∃ (src cut : Body) (e : ℝ), Proper src ∧ Proper cut ∧ Joined src ∧ Joined cut ∧ (∀ q, ¬(OnSurface src q ∧ OnSurface cut q)) ∧ 0 ≤ e ∧ BoxOf 0 src ∧ BoxOf e cut ∧
    src.mesh.isClosed = true ∧ cut.mesh.isClosed = true ∧ EnclosedBy cut src ∧ intersectionType src cut = .none := by
  have hd : ∀ q, ¬(OnSurface (tet 0 4 0) q ∧ OnSurface (tet (1 / 10000) (4 - 4 / 10000) (1 / 1000)) q) := tet_disjoint (by norm_num) (by norm_num) (by norm_num) (by norm_num)
  have hl : ¬diagonal (tet 0 4 0).box > diagonal (tet (1 / 10000) (4 - 4 / 10000) (1 / 1000)).box := by
    norm_num [diagonal, squaredLength, dot, sub, tet]
  have ho : Box.intersect (tet 0 4 0).box (tet (1 / 10000) (4 - 4 / 10000) (1 / 1000)).box = true := by
    norm_num [Box.intersect, tet]
  have ne : ¬EnclosedBy (tet 0 4 0) (tet (1 / 10000) (4 - 4 / 10000) (1 / 1000)) := by
    intro h
    have := (enclosed_box (tet_proper _ _ _) (tet_joined _ _ _) (tet_proper _ _ _) (tet_boxOf 0 (by norm_num) 0) (tet_boxOf (1 / 10000) (by norm_num) (1 / 1000)) h).1
    norm_num [tet] at this
  refine ⟨tet 0 4 0, tet (1 / 10000) (4 - 4 / 10000) (1 / 1000), 1 / 1000, tet_proper _ _ _, tet_proper _ _ _, tet_joined _ _ _, tet_joined _ _ _, hd, by norm_num, tet_boxOf _ (by norm_num) _, tet_boxOf _ (by norm_num) _,
    tet_closed _ _ _, tet_closed _ _ _, tet_enclosed (by norm_num) (by norm_num) (by norm_num) _ _, ?_⟩
  have h1 := (C75_smaller (tet_proper _ _ _) (tet_proper _ _ _) (tet_joined _ _ _) hd (tet_closed _ _ _) (tet_closed _ _ _) hl ho).not.2 (by rw [tet_own]; simp)
  have h2 := (C75_inside_cut (tet_proper _ _ _) (tet_proper _ _ _) (tet_joined _ _ _) hd (e := 1 / 1000) (by norm_num) (tet_boxOf 0 (by norm_num) 0) (tet_boxOf _ (by norm_num) _)).not.2 ne
  have h3 := C75_not_standard (tet 0 4 0) (tet (1 / 10000) (4 - 4 / 10000) (1 / 1000))
  revert h1 h2 h3
  cases intersectionType (tet 0 4 0) (tet (1 / 10000) (4 - 4 / 10000) (1 / 1000)) <;> simp

-- the hypotheses of `C75_inside_source_partial` and of `C75_inside_cut` are met by nested tetrahedra, which are reported as such
example : intersectionType (tet 0 4 0) (tet (1 / 2) 2 (1 / 1000)) = .insideSrc :=
  (C75_inside_source_partial (tet_proper _ _ _) (tet_proper _ _ _) (tet_joined _ _ _) (tet_disjoint (by norm_num) (by norm_num) (by norm_num) (by norm_num)) (e := 1 / 1000) (by norm_num) (tet_boxOf _ (by norm_num) _)
    (tet_boxOf _ (by norm_num) _) (fun _ _ => by norm_num [diagonal, squaredLength, dot, sub, tet])).2 (tet_enclosed (by norm_num) (by norm_num) (by norm_num) _ _)

example : intersectionType (tet (1 / 2) 2 0) (tet 0 4 (1 / 1000)) = .insideCut :=
  (C75_inside_cut (tet_proper _ _ _) (tet_proper _ _ _) (tet_joined _ _ _) (fun q h => tet_disjoint (by norm_num) (by norm_num) (by norm_num) (by norm_num) q ⟨h.2, h.1⟩) (e := 1 / 1000) (by norm_num) (tet_boxOf _ (by norm_num) _)
    (tet_boxOf _ (by norm_num) _)).2 (tet_enclosed (by norm_num) (by norm_num) (by norm_num) _ _)

-- a winding number
example : (tet 0 4 0).winding ⟨1, 1, 1⟩ = 1 := by
  have h := tet_inside (by norm_num : (0:ℝ) < 1) (by norm_num) 0
  exact (inside_iff (tet_proper _ _ _) (tet_closed _ _ _) h.2.1).1 h

end Mcut.Winding
