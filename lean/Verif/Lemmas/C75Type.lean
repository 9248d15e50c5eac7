import Verif.Lemmas.C75Generic

/-! C75: one point of a connected mesh decides; boxes; the reported type. -/
namespace Mcut.Winding
open Mcut.Hmesh Mcut.Dispatch

/-- The winding number does not change along a path that avoids the surface. -/
theorem winding_path {b : Body} (hp : Proper b) (hc : b.mesh.isClosed = true) {q : ℝ → Vec} (hq : Moves (Set.Icc 0 1) q) (h : ∀ s ∈ Set.Icc (0:ℝ) 1, ¬OnSurface b (q s)) :
    b.winding (q 0) = b.winding (q 1) := by
  obtain ⟨d, hr⟩ := hp.reachable
  have pi := Real.pi_pos
  have M := constant_turns (f := fun s => ((triangles b).map (turn b (q s))).sum) ?_ ?_
  · rw [winding_eq hr (h 0 ⟨le_refl _, by norm_num⟩), winding_eq hr (h 1 ⟨by norm_num, le_refl _⟩), M]
  · have off : ∀ t ∈ triangles b, ∀ s ∈ Set.Icc (0:ℝ) 1, ¬Zero3 (sub (b.mesh.pos t.1) (q s)) (sub (b.mesh.pos t.2.1) (q s)) (sub (b.mesh.pos t.2.2) (q s)) :=
      fun t ht s hs => turn_off (h s hs) ht
    have mv : ∀ v : Vec, Moves (Set.Icc 0 1) (fun s => sub v (q s)) := fun v =>
      ⟨continuousOn_const.sub hq.1, continuousOn_const.sub hq.2.1, continuousOn_const.sub hq.2.2⟩
    generalize triangles b = ts at off
    induction ts with
    | nil => simp only [List.map_nil, List.sum_nil]; exact continuousOn_const
    | cons t ts ih =>
      simp only [List.map_cons, List.sum_cons]
      exact ContinuousOn.add ((mv _).arg (mv _) (mv _) (off t List.mem_cons_self)) (ih (fun u hu => off u (List.mem_cons_of_mem _ hu)))
  · intro s hs
    obtain ⟨k, hk⟩ := winding_int hp hc (h s hs)
    rw [winding_eq hr (h s hs)] at hk
    refine ⟨k, ?_⟩
    rw [← hk]; field_simp




theorem winding_segment {a b : Body} (hp : Proper b) (hc : b.mesh.isClosed = true) (hd : ∀ q, ¬(OnSurface a q ∧ OnSurface b q)) {p p' : Vec} (h : ∀ s ∈ Set.Icc (0:ℝ) 1, OnSurface a (mix s p p')) :
    b.winding p = b.winding p' := by
  have := winding_path hp hc (mix_moves p p') (fun s hs e => hd _ ⟨h s hs, e⟩)
  simpa only [mix_zero, mix_one] using this

theorem tri_mix {a b c p p' : Vec} (h : InTriangle a b c p) (h' : InTriangle a b c p') {s : ℝ} (hs : s ∈ Set.Icc (0:ℝ) 1) : InTriangle a b c (mix s p p') := by
  obtain ⟨α, β, γ, h1, h2, h3, h4, rfl⟩ := h
  obtain ⟨α', β', γ', h1', h2', h3', h4', rfl⟩ := h'
  have t0 : 0 ≤ 1 - s := by linarith [hs.2]
  have s0 := hs.1
  refine ⟨(1 - s) * α + s * α', (1 - s) * β + s * β', (1 - s) * γ + s * γ', by positivity, by positivity, by positivity, by linear_combination (1 - s) * h4 + s * h4', ?_⟩
  unfold mix
  ext <;> simp only <;> ring

theorem quad_mix {a b c d p p' : Vec} (h : InQuad a b c d p) (h' : InQuad a b c d p') {s : ℝ} (hs : s ∈ Set.Icc (0:ℝ) 1) : InQuad a b c d (mix s p p') := by
  obtain ⟨α, β, γ, δ, h1, h2, h3, h5, h4, rfl⟩ := h
  obtain ⟨α', β', γ', δ', h1', h2', h3', h5', h4', rfl⟩ := h'
  have t0 : 0 ≤ 1 - s := by linarith [hs.2]
  have s0 := hs.1
  refine ⟨(1 - s) * α + s * α', (1 - s) * β + s * β', (1 - s) * γ + s * γ', (1 - s) * δ + s * δ', by positivity, by positivity, by positivity, by positivity, by linear_combination (1 - s) * h4 + s * h4', ?_⟩
  unfold mix
  ext <;> simp only <;> ring

theorem seg_mix {p p' : Vec} {s : ℝ} (hs : s ∈ Set.Icc (0:ℝ) 1) : InSegment p p' (mix s p p') :=
  ⟨1 - s, s, by linarith [hs.2], hs.1, by ring, rfl⟩

theorem tri_first (a b c : Vec) : InTriangle a b c a := ⟨1, 0, 0, by norm_num, le_refl _, le_refl _, by norm_num, by ext <;> simp⟩
theorem quad_first (a b c d : Vec) : InQuad a b c d a := ⟨1, 0, 0, 0, by norm_num, le_refl _, le_refl _, le_refl _, by norm_num, by ext <;> simp⟩

theorem corner_mem {m : Mesh Vec} {f i : Nat} (h : i < (m.verticesAroundFace f).length) : corner m f i ∈ m.verticesAroundFace f := by
  unfold corner
  rw [List.getD_eq_getElem?_getD, List.getElem?_eq_getElem h]
  exact List.getElem_mem h

theorem face_len {b : Body} (hp : Proper b) {f : Nat} (hf : LiveF b.mesh f) : 3 ≤ (b.mesh.verticesAroundFace f).length := by
  obtain ⟨d, hr⟩ := hp.reachable
  have := ((reachable_wf hr).faceOK hf).len
  unfold Mesh.verticesAroundFace; rw [List.length_map]; exact this

theorem tri_corner {b : Body} (hp : Proper b) {f : Nat} (hf : LiveF b.mesh f) {t : Nat × Nat × Nat} (ht : t ∈ trianglesOf b f) :
    t.1 ∈ b.mesh.verticesAroundFace f ∧ t.2.1 ∈ b.mesh.verticesAroundFace f ∧ t.2.2 ∈ b.mesh.verticesAroundFace f := by
  have len := face_len hp hf
  unfold trianglesOf at ht
  split at ht
  · simp only [List.mem_cons, List.not_mem_nil, or_false] at ht
    subst ht
    exact ⟨corner_mem (by omega), corner_mem (by omega), corner_mem (by omega)⟩
  · split at ht
    · simp only [List.mem_cons, List.not_mem_nil, or_false] at ht
      rcases ht with rfl | rfl
      · exact ⟨corner_mem (by omega), corner_mem (by omega), corner_mem (by omega)⟩
      · exact ⟨corner_mem (by omega), corner_mem (by omega), corner_mem (by omega)⟩
    · obtain ⟨i, hi, rfl⟩ := List.mem_map.1 ht
      rw [List.mem_range] at hi
      have g : ∀ k, k < (b.cdt f).length → (b.cdt f).getD k 0 < (b.mesh.verticesAroundFace f).length := by
        intro k hk
        apply hp.inRange f hf
        rw [List.getD_eq_getElem?_getD, List.getElem?_eq_getElem hk]
        exact List.getElem_mem hk
      exact ⟨corner_mem (g _ (by omega)), corner_mem (g _ (by omega)), corner_mem (g _ (by omega))⟩

/-- Every point of a face is joined to a corner within the face. -/
theorem to_corner {a b : Body} (ha : Proper a) (hp : Proper b) (hc : b.mesh.isClosed = true) (hd : ∀ q, ¬(OnSurface a q ∧ OnSurface b q)) {f : Nat} (hf : LiveF a.mesh f) {q : Vec} (h : OnFace a f q) :
    ∃ v ∈ a.mesh.verticesAroundFace f, b.winding q = b.winding (a.mesh.pos v) := by
  by_cases h4 : (a.mesh.verticesAroundFace f).length = 4
  · refine ⟨corner a.mesh f 0, corner_mem (by omega), winding_segment hp hc hd (fun s hs => ⟨f, hf, ?_⟩)⟩
    unfold OnFace at h ⊢
    rw [if_pos h4] at h ⊢
    exact quad_mix h (quad_first _ _ _ _) hs
  · have h' := h
    unfold OnFace at h'
    rw [if_neg h4] at h'
    obtain ⟨t, ht, e⟩ := h'
    exact ⟨t.1, (tri_corner ha hf ht).1, winding_segment hp hc hd (fun s hs => ⟨f, hf, tri_onFace ht (tri_mix e (tri_first _ _ _) hs)⟩)⟩

/-- The side of a face lies on the face. -/
theorem side_onFace {a : Body} (ha : Proper a) {f : Nat} (hf : LiveF a.mesh f) {u v : Nat} (h : (u, v) ∈ Preproc.dirEdges (a.mesh.verticesAroundFace f)) {q : Vec}
    (hq : InSegment (a.mesh.pos u) (a.mesh.pos v) q) : OnFace a f q := by
  obtain ⟨d, hr⟩ := ha.reachable
  obtain ⟨D, hD⟩ := divides_of_tri hr ha.divided hf
  have : (u, v) ∈ sides (trianglesOf a f) := hD.mem_iff.2 (List.mem_append_left _ h)
  obtain ⟨t, ht, e⟩ := seg_of_side this hq
  exact tri_onFace ht e

/-- All corners have the same winding number. -/
theorem corners_same {a b : Body} (ha : Proper a) (hp : Proper b) (hc : b.mesh.isClosed = true) (hd : ∀ q, ¬(OnSurface a q ∧ OnSurface b q)) {u v : Nat}
    (h : Relation.EqvGen (fun u w => ∃ f, LiveF a.mesh f ∧ (u, w) ∈ Preproc.dirEdges (a.mesh.verticesAroundFace f)) u v) : b.winding (a.mesh.pos u) = b.winding (a.mesh.pos v) := by
  induction h with
  | rel x y h =>
    obtain ⟨f, hf, h⟩ := h
    exact winding_segment hp hc hd (fun s hs => ⟨f, hf, side_onFace ha hf h (seg_mix hs)⟩)
  | refl x => rfl
  | symm x y _ ih => exact ih.symm
  | trans x y z _ _ i1 i2 => exact i1.trans i2

theorem corner_onFace {a : Body} (ha : Proper a) {f : Nat} (hf : LiveF a.mesh f) {v : Nat} (hv : v ∈ a.mesh.verticesAroundFace f) : OnFace a f (a.mesh.pos v) := by
  have : ∃ w, (v, w) ∈ Preproc.dirEdges (a.mesh.verticesAroundFace f) := by
    rw [Preproc.dirEdges_eq]
    have e := cycPairs_fst (a.mesh.verticesAroundFace f)
    have : v ∈ (cycPairs (a.mesh.verticesAroundFace f)).map Prod.fst := by rw [e]; exact hv
    obtain ⟨p, hp, rfl⟩ := List.mem_map.1 this
    exact ⟨p.2, hp⟩
  obtain ⟨w, hw⟩ := this
  refine side_onFace ha hf hw ⟨1, 0, by norm_num, le_refl _, by norm_num, by ext <;> simp⟩

/-- All points of a connected mesh have the winding number of its first vertex. -/
theorem surface_same {a b : Body} (ha : Proper a) (hj : Joined a) (hp : Proper b) (hc : b.mesh.isClosed = true) (hd : ∀ q, ¬(OnSurface a q ∧ OnSurface b q)) {q : Vec} (hq : OnSurface a q) :
    b.winding q = b.winding (a.mesh.pos 0) := by
  obtain ⟨f, hf, h⟩ := hq
  obtain ⟨v, hv, e⟩ := to_corner ha hp hc hd hf h
  rw [e]
  exact (corners_same ha hp hc hd (hj.path f hf v hv)).symm

theorem first_on {a : Body} (ha : Proper a) (hj : Joined a) : OnSurface a (a.mesh.pos 0) := by
  obtain ⟨f, hf, h⟩ := hj.first
  exact ⟨f, hf, corner_onFace ha hf h⟩

/-- The test with the first vertex decides whether the whole mesh is enclosed. -/
theorem enclosed_iff {a b : Body} (ha : Proper a) (hj : Joined a) (hp : Proper b) (hc : b.mesh.isClosed = true) (hd : ∀ q, ¬(OnSurface a q ∧ OnSurface b q)) :
    EnclosedBy a b ↔ isInside (b.winding (a.mesh.pos 0)) = true := by
  have off : ¬OnSurface b (a.mesh.pos 0) := fun e => hd _ ⟨first_on ha hj, e⟩
  rw [isInside_iff hp hc off]
  constructor
  · intro h; exact h _ (first_on ha hj)
  · intro h q hq
    have offq : ¬OnSurface b q := fun e => hd _ ⟨hq, e⟩
    rw [inside_iff hp hc offq, surface_same ha hj hp hc hd hq]
    exact (inside_iff hp hc off).1 h

theorem enclosed_closed {a b : Body} (ha : Proper a) (hj : Joined a) (h : EnclosedBy a b) : b.mesh.isClosed = true := (h _ (first_on ha hj)).1

/-- An enclosed mesh has a smaller box. -/
theorem enclosed_box {a b : Body} (ha : Proper a) (hj : Joined a) (hp : Proper b) {e e' : ℝ} (A : BoxOf e a) (B : BoxOf e' b) (h : EnclosedBy a b) :
    b.box.lo.x + e' < a.box.lo.x + e ∧ a.box.hi.x - e < b.box.hi.x - e' ∧ b.box.lo.y + e' < a.box.lo.y + e ∧ a.box.hi.y - e < b.box.hi.y - e' ∧
    b.box.lo.z + e' < a.box.lo.z + e ∧ a.box.hi.z - e < b.box.hi.z - e' := by
  have hc := enclosed_closed ha hj h
  have key : ∀ f v, LiveF a.mesh f → v ∈ a.mesh.verticesAroundFace f → ∀ n u w z : Vec, det u w z ≠ 0 → dot n u < 0 → dot n w = 0 → dot n z = 0 →
      ¬∀ g k, LiveF b.mesh g → k ∈ b.mesh.verticesAroundFace g → 0 ≤ dot n (sub (b.mesh.pos k) (a.mesh.pos v)) := by
    intro f v hf hv n u w z hD h1 h2 h3 hall
    have I := h _ ⟨f, hf, corner_onFace ha hf hv⟩
    have w1 := (inside_iff hp hc I.2.1).1 I
    have w0 := winding_outside hp hc I.2.1 hD h1 h2 h3 (by
      intro t ht
      unfold triangles at ht
      obtain ⟨g, hg, ht⟩ := List.mem_flatMap.1 ht
      rw [← faces_eq] at hg
      have hg := mem_faces.1 hg
      obtain ⟨k1, k2, k3⟩ := tri_corner hp hg ht
      exact ⟨hall g _ hg k1, hall g _ hg k2, hall g _ hg k3⟩)
    rw [w0] at w1; norm_num at w1
  obtain ⟨f1, v1, hf1, hv1, e1⟩ := A.lox
  obtain ⟨f2, v2, hf2, hv2, e2⟩ := A.hix
  obtain ⟨f3, v3, hf3, hv3, e3⟩ := A.loy
  obtain ⟨f4, v4, hf4, hv4, e4⟩ := A.hiy
  obtain ⟨f5, v5, hf5, hv5, e5⟩ := A.loz
  obtain ⟨f6, v6, hf6, hv6, e6⟩ := A.hiz
  refine ⟨?_, ?_, ?_, ?_, ?_, ?_⟩ <;> by_contra hn <;> push Not at hn
  · refine key f1 v1 hf1 hv1 ⟨1, 0, 0⟩ ⟨-1, 0, 0⟩ ⟨0, 1, 0⟩ ⟨0, 0, 1⟩ (by norm_num [det, dot, cross]) (by norm_num [dot]) (by norm_num [dot]) (by norm_num [dot]) ?_
    intro g k hg hk
    have := B.within g hg k hk
    simp only [dot, sub]; linarith
  · refine key f2 v2 hf2 hv2 ⟨-1, 0, 0⟩ ⟨1, 0, 0⟩ ⟨0, 1, 0⟩ ⟨0, 0, 1⟩ (by norm_num [det, dot, cross]) (by norm_num [dot]) (by norm_num [dot]) (by norm_num [dot]) ?_
    intro g k hg hk
    have := B.within g hg k hk
    simp only [dot, sub]; linarith
  · refine key f3 v3 hf3 hv3 ⟨0, 1, 0⟩ ⟨0, -1, 0⟩ ⟨1, 0, 0⟩ ⟨0, 0, 1⟩ (by norm_num [det, dot, cross]) (by norm_num [dot]) (by norm_num [dot]) (by norm_num [dot]) ?_
    intro g k hg hk
    have := B.within g hg k hk
    simp only [dot, sub]; linarith
  · refine key f4 v4 hf4 hv4 ⟨0, -1, 0⟩ ⟨0, 1, 0⟩ ⟨1, 0, 0⟩ ⟨0, 0, 1⟩ (by norm_num [det, dot, cross]) (by norm_num [dot]) (by norm_num [dot]) (by norm_num [dot]) ?_
    intro g k hg hk
    have := B.within g hg k hk
    simp only [dot, sub]; linarith
  · refine key f5 v5 hf5 hv5 ⟨0, 0, 1⟩ ⟨0, 0, -1⟩ ⟨1, 0, 0⟩ ⟨0, 1, 0⟩ (by norm_num [det, dot, cross]) (by norm_num [dot]) (by norm_num [dot]) (by norm_num [dot]) ?_
    intro g k hg hk
    have := B.within g hg k hk
    simp only [dot, sub]; linarith
  · refine key f6 v6 hf6 hv6 ⟨0, 0, -1⟩ ⟨0, 0, 1⟩ ⟨1, 0, 0⟩ ⟨0, 1, 0⟩ (by norm_num [det, dot, cross]) (by norm_num [dot]) (by norm_num [dot]) (by norm_num [dot]) ?_
    intro g k hg hk
    have := B.within g hg k hk
    simp only [dot, sub]; linarith

theorem box_order {a : Body} {e : ℝ} (A : BoxOf e a) : a.box.lo.x + e ≤ a.box.hi.x - e ∧ a.box.lo.y + e ≤ a.box.hi.y - e ∧ a.box.lo.z + e ≤ a.box.hi.z - e := by
  obtain ⟨f1, v1, hf1, hv1, e1⟩ := A.lox
  have := A.within f1 hf1 v1 hv1
  refine ⟨by linarith, by linarith, by linarith⟩

theorem enclosed_overlap {a b : Body} (ha : Proper a) (hj : Joined a) (hp : Proper b) {e e' : ℝ} (he : 0 ≤ e) (he' : 0 ≤ e') (A : BoxOf e a) (B : BoxOf e' b) (h : EnclosedBy a b) :
    Box.intersect a.box b.box = true ∧ Box.intersect b.box a.box = true := by
  obtain ⟨h1, h2, h3, h4, h5, h6⟩ := enclosed_box ha hj hp A B h
  obtain ⟨o1, o2, o3⟩ := box_order A
  unfold Box.intersect
  simp only [Bool.and_eq_true, decide_eq_true_eq]
  refine ⟨⟨⟨⟨?_, ?_⟩, ?_, ?_⟩, ?_, ?_⟩, ⟨⟨?_, ?_⟩, ?_, ?_⟩, ?_, ?_⟩ <;> linarith

theorem enclosed_smaller {a b : Body} (ha : Proper a) (hj : Joined a) (hp : Proper b) {e' : ℝ} (he' : 0 ≤ e') (A : BoxOf 0 a) (B : BoxOf e' b) (h : EnclosedBy a b) :
    diagonal a.box < diagonal b.box := by
  obtain ⟨h1, h2, h3, h4, h5, h6⟩ := enclosed_box ha hj hp A B h
  obtain ⟨o1, o2, o3⟩ := box_order A
  unfold diagonal squaredLength dot sub
  simp only
  have q : ∀ {x y : ℝ}, 0 ≤ x → x < y → x * x < y * y := fun h0 hl => by nlinarith
  have := q (x := a.box.hi.x - a.box.lo.x) (y := b.box.hi.x - b.box.lo.x) (by linarith) (by linarith)
  have := q (x := a.box.hi.y - a.box.lo.y) (y := b.box.hi.y - b.box.lo.y) (by linarith) (by linarith)
  have := q (x := a.box.hi.z - a.box.lo.z) (y := b.box.hi.z - b.box.lo.z) (by linarith) (by linarith)
  linarith

end Mcut.Winding
