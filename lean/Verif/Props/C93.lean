import Verif.Lemmas.C93c
import Verif.Props.C66
import Mathlib.Data.List.Sort
import Mathlib.Tactic.NormNum
import Mathlib.Algebra.BigOperators.Group.Finset.Piecewise
import Mathlib.Data.Rat.Defs
import Mathlib.Algebra.Order.Field.Rat

/-!
# C93: faces with more than two common points
-/
namespace Mcut.CutEdges
open Mcut.Hmesh Mcut.Registry Mcut.Geom Mcut.Extract Mcut.Pairs

section Order
variable {K : Type*} [Field K] [LinearOrder K] [IsStrictOrderedRing K]

/-- **C93 (permutation).** No point is lost or doubled by the sorting, wherever the points are. -/
theorem C93_permutation (scale : V3 K → K) (pos : Nat → V3 K) (sort : List (Nat × K) → List (Nat × K)) (hsort : Sorts sort) (l : List Nat) :
    (projectionSort scale pos sort l).Perm l := by
  match l with
  | [] => exact .refl _
  | [_] => exact .refl _
  | o :: q :: l =>
    unfold projectionSort
    refine ((hsort _).1.map _).trans ?_
    unfold projections
    rw [List.map_map]
    have : (Prod.fst ∘ fun i => (i, dot (sub3 (pos o) (pos i)) (unit scale (sub3 (pos o) (pos q))))) = (id : Nat → Nat) := rfl
    rw [this, List.map_id]

/-- **C93 (order).** At least two points, at different places on one line, with any `std::sort` and any positive scale for the direction: two points come one after the
other in the result exactly if no other point is between them. -/
theorem C93_order (scale : V3 K → K) (hscale : ∀ v, v ≠ ⟨0, 0, 0⟩ → 0 < scale v) (sort : List (Nat × K) → List (Nat × K)) (hsort : Sorts sort) (pos : Nat → V3 K)
    (l : List Nat) (h2 : 2 ≤ l.length) (hn : l.Nodup) (hl : OnOneLine pos l) (hd : ∀ v ∈ l, ∀ w ∈ l, pos v = pos w → v = w) (v w : Nat) :
    Consecutive (projectionSort scale pos sort l) v w ↔ NextTo pos l v w := by
  obtain ⟨hp, t, c, u, a, hc, hu, ht, hs⟩ := projectionSort_spec hscale hsort h2 hn hl hd
  have hcons : Consecutive (projectionSort scale pos sort l) v w ↔
      ((∃ l1 l2, projectionSort scale pos sort l = l1 ++ v :: w :: l2) ∨ (∃ l1 l2, projectionSort scale pos sort l = l1 ++ w :: v :: l2)) := by
    unfold Consecutive
    constructor
    · rintro ⟨l1, l2, h | h⟩
      · exact .inl ⟨l1, l2, h⟩
      · exact .inr ⟨l1, l2, h⟩
    · rintro (⟨l1, l2, h⟩ | ⟨l1, l2, h⟩)
      · exact ⟨l1, l2, .inl h⟩
      · exact ⟨l1, l2, .inr h⟩
  rw [hcons, consecutive_iff (fun v => c * t v) _ hs, consecutive_iff (fun v => c * t v) _ hs]
  simp only [hp.mem_iff]
  unfold NextTo
  have hcmp : ∀ {x y z : Nat}, x ∈ l → y ∈ l → z ∈ l → x ≠ z → (StrictlyBetween (pos x) (pos y) (pos z) ↔
      (c * t x < c * t y ∧ c * t y < c * t z) ∨ (c * t z < c * t y ∧ c * t y < c * t x)) := by
    intro x y z hx hy hz hxz
    have hne : t x ≠ t z := by
      intro e
      obtain ⟨p1, p2, p3⟩ := ht x hx
      obtain ⟨q1, q2, q3⟩ := ht z hz
      apply hxz
      apply hd x hx z hz
      ext
      · rw [p1, q1, e]
      · rw [p2, q2, e]
      · rw [p3, q3, e]
    rw [between_iff hu ht hx hy hz hne]
    rcases lt_or_gt_of_ne hc with h | h
    · rw [mul_lt_mul_left_of_neg h, mul_lt_mul_left_of_neg h, mul_lt_mul_left_of_neg h, mul_lt_mul_left_of_neg h]
      tauto
    · rw [mul_lt_mul_iff_right₀ h, mul_lt_mul_iff_right₀ h, mul_lt_mul_iff_right₀ h, mul_lt_mul_iff_right₀ h]
  constructor
  · rintro (⟨h1, h2, h3, h4⟩ | ⟨h1, h2, h3, h4⟩)
    · have hvw : v ≠ w := by rintro rfl; exact lt_irrefl _ h3
      refine ⟨h1, h2, hvw, fun x hx hb => ?_⟩
      rcases (hcmp h1 hx h2 hvw).1 hb with h | h
      · exact h4 x hx h
      · exact lt_asymm h3 (h.1.trans h.2)
    · have hvw : v ≠ w := by rintro rfl; exact lt_irrefl _ h3
      refine ⟨h2, h1, hvw, fun x hx hb => ?_⟩
      rcases (hcmp h2 hx h1 hvw).1 hb with h | h
      · exact lt_asymm h3 (h.1.trans h.2)
      · exact h4 x hx h
  · rintro ⟨h1, h2, hvw, h4⟩
    have hne : c * t v ≠ c * t w := by
      intro e
      have e := mul_left_cancel₀ hc e
      obtain ⟨p1, p2, p3⟩ := ht v h1
      obtain ⟨q1, q2, q3⟩ := ht w h2
      apply hvw
      apply hd v h1 w h2
      ext
      · rw [p1, q1, e]
      · rw [p2, q2, e]
      · rw [p3, q3, e]
    rcases lt_or_gt_of_ne hne with h | h
    · exact .inl ⟨h1, h2, h, fun x hx hb => h4 x hx ((hcmp h1 hx h2 hvw).2 (.inl hb))⟩
    · exact .inr ⟨h2, h1, h, fun x hx hb => h4 x hx ((hcmp h1 hx h2 hvw).2 (.inr hb))⟩

end Order

section Stage
variable {P : Type} {d : P} {sm cs ps : Mesh P}

/-- **C93 (edges).** The source mesh and the cut mesh are valid, `t` are the tables that the intersection tests leave (C63) without the same edge and face twice, and two
faces have at most one common edge. Whatever numbers of common points the pairs of faces have, whatever order `sort` gives and whatever the test `inside` says, the stage
succeeds and leaves the graph of the wanted edges: two common points of a pair of faces are joined always; of more, those that follow each other in the order and whose
middle is inside of both faces, and no others. The edges are recorded with exactly the two faces. -/
theorem C93_edges (M : MergeOf d sm cs ps) (hs : Preproc.ValidMesh sm.numVertices (Extract.polygons sm))
    (hc : Preproc.ValidMesh cs.numVertices (Extract.polygons cs)) (R : List (Nat × Nat × P)) (t : Tables P) (T : Recorded ps sm.numFaces ps.numVertices R t)
    (hx : CrossTested ps sm.numFaces t.reg) (hnd : t.reg.Nodup) (h1 : OneCommonEdge ps) (keys : List (Nat × Nat)) (hkeys : ∀ k, t.cut k ≠ [] → k ∈ keys)
    (sort : List Nat → List Nat) (hsort : ∀ k, 2 < (t.cut k).length → (sort (t.cut k)).Perm (t.cut k)) (inside : Nat → Nat → Nat → Bool) :
    ∃ st, cutEdges ps ps.numVertices t.reg sort inside t.cut keys (addPoints (Extract.copyVertices d ps).1 t.pts) = some st ∧
      GraphOf (addPoints (Extract.copyVertices d ps).1 t.pts) (Wanted sort inside t.cut) st := by
  have K := known_of M hs hc T hx
  have hlen : t.pts.length = t.reg.length := by rw [T.pts, T.reg]; simp
  obtain ⟨B, -, -⟩ := addPoints_bare t.pts _ _ (copyVertices_bare M.intact)
  generalize addPoints (Extract.copyVertices d ps).1 t.pts = m at *
  have W := reachable_wf B.reach
  have hno : ∀ h, ¬ LiveH m h := by
    intro h hl
    have := ((W.liveH_iff h).1 hl).1
    rw [B.nE] at this; omega
  have inCut : ∀ k v w, Wanted sort inside t.cut k v w → v ≠ w ∧ v ∈ t.cut k ∧ w ∈ t.cut k := by
    intro k v w h
    have hn : (t.cut k).Nodup := (K.sorted k).imp (fun h => by omega)
    rcases h with h | ⟨hl, ⟨l1, l2, h⟩, -⟩
    · have := K.lt h
      rw [h]
      exact ⟨by omega, by simp, by simp⟩
    · have hp := hsort k hl
      have hsn := hp.nodup_iff.2 hn
      rw [h] at hp hsn
      refine ⟨?_, hp.mem_iff.1 (by simp), hp.mem_iff.1 (by simp)⟩
      rw [List.nodup_append] at hsn
      have := hsn.2.1
      rw [List.nodup_cons] at this
      intro e
      exact this.1 (by simp [e])
  have TT : Task d ps sm.numVertices sm.numFaces ps.numVertices t.reg t.cut m (Wanted sort inside t.cut) := ⟨K, hnd, h1, by rw [B.nV, hlen], inCut⟩
  have p0 : Going d m (Wanted sort inside t.cut) (fun _ _ => False) ⟨m, [], fun _ => [], fun _ => []⟩ := by
    refine ⟨B.reach, B.vRem, rfl, rfl, B.nE, B.eRem, B.nF, B.fRem, rfl, by simp, by simp, by simp, by simp, by simp, ?_⟩
    funext v
    symm
    rw [List.eq_nil_iff_forall_not_mem]
    exact fun h hh => hno h ((W.vh_mem v h).1 hh).1
  obtain ⟨st, e, p⟩ := pairs_going sort inside TT hsort keys _ _ p0
  refine ⟨st, e, ?_⟩
  have W' := reachable_wf p.reach
  have mem : ∀ e, e ∈ st.cutEdges ↔ e < st.cutEdges.length := by
    intro e
    conv_lhs => rw [p.numbers]
    rw [List.mem_range]
  refine ⟨⟨?_, p.pos, ?_, p.liveE, ?_⟩, p.numbers, ?_, ?_, ?_, ?_, p.facesNodup, ?_, ?_, ?_⟩
  · simp [Mesh.numVertices, p.vRem, B.vRem, p.nV]
  · simp [Mesh.numEdges, p.eRem, p.nE]
  · simp [p.nF]
  · intro e he; exact p.only e ((mem e).1 he)
  · intro k v w hw
    have hk : t.cut k ≠ [] := by
      intro h
      have := (inCut k v w hw).2.1
      rw [h] at this; simp at this
    obtain ⟨e, he, hj⟩ := p.every v w (.inr ⟨k, hkeys k hk, hw⟩)
    exact ⟨e, (mem e).2 he, hj⟩
  · intro e he e' he' v w hj hj'; exact p.once e ((mem e).1 he) e' ((mem e').1 he') v w hj hj'
  · intro e he
    have hl : LiveH st.m0 (e * 2 + 0) := by rw [W'.liveH_iff, show (e * 2 + 0) / 2 = e by omega]; exact (p.liveE e).2 ((mem e).1 he)
    have := (W'.half _ hl).2.2.2
    rw [show opposite (e * 2 + 0) = e * 2 + 1 by unfold opposite; split <;> omega] at this
    exact fun h => this h.symm
  · intro f e; rw [p.faces, mem]
  · intro v; rw [p.incoming]; exact W'.vh_nd v
  · intro v h
    rw [p.incoming, W'.vh_mem, W'.liveH_iff, p.liveE, mem]
    rfl

/-- **C93 (segments).** The same in space: the places of the points are `t.pts`, the common points of two faces that have more than two are at different places on one line,
the order is that of `linear_projection_sort` with any `std::sort`, and `test f p` says whether `p` is inside of face `f`. The stage leaves the graph whose edges are exactly
the segments between neighbouring common points of two faces (no other common point of them in between), where, if there are more than two, the middle is inside of both. -/
theorem C93_segments {K : Type} [Field K] [LinearOrder K] [IsStrictOrderedRing K] {d : V3 K} {sm cs ps : Mesh (V3 K)} (M : MergeOf d sm cs ps)
    (hs : Preproc.ValidMesh sm.numVertices (Extract.polygons sm)) (hc : Preproc.ValidMesh cs.numVertices (Extract.polygons cs)) (R : List (Nat × Nat × V3 K))
    (t : Tables (V3 K)) (T : Recorded ps sm.numFaces ps.numVertices R t) (hx : CrossTested ps sm.numFaces t.reg) (hnd : t.reg.Nodup) (h1 : OneCommonEdge ps)
    (keys : List (Nat × Nat)) (hkeys : ∀ k, t.cut k ≠ [] → k ∈ keys) (m : Mesh (V3 K)) (hm : m = addPoints (Extract.copyVertices d ps).1 t.pts)
    (hline : ∀ k, 2 ≤ (t.cut k).length → OnOneLine m.pos (t.cut k))
    (hplace : ∀ k, ∀ v ∈ t.cut k, ∀ w ∈ t.cut k, m.pos v = m.pos w → v = w)
    (scale : V3 K → K) (hscale : ∀ v, v ≠ ⟨0, 0, 0⟩ → 0 < scale v) (sort : List (Nat × K) → List (Nat × K)) (hsort : Sorts sort) (test : Nat → V3 K → Bool) :
    ∃ st, cutEdges ps ps.numVertices t.reg (projectionSort scale m.pos sort) (insideMiddle test m.pos) t.cut keys m = some st ∧
      GraphOf m (Segment test m.pos t.cut) st := by
  have K' := known_of M hs hc T hx
  obtain ⟨st, e, G⟩ := C93_edges M hs hc R t T hx hnd h1 keys hkeys (projectionSort scale m.pos sort)
    (fun k _ => C93_permutation scale m.pos sort hsort _) (insideMiddle test m.pos)
  rw [← hm] at e G
  refine ⟨st, e, ?_⟩
  have nd : ∀ k, (t.cut k).Nodup := fun k => (K'.sorted k).imp (fun h => by omega)
  have twoCase : ∀ {k v w}, t.cut k = [v, w] → Segment test m.pos t.cut k v w :=
    fun {k v w} h => segment_two h (by have := K'.lt h; omega) (hplace k)
  have toSeg : ∀ {k v w}, Wanted (projectionSort scale m.pos sort) (insideMiddle test m.pos) t.cut k v w → Segment test m.pos t.cut k v w := by
    rintro k v w (h | ⟨hl, ⟨l1, l2, h⟩, h3, h4⟩)
    · exact twoCase h
    · exact ⟨(C93_order scale hscale sort hsort m.pos _ (by omega) (nd k) (hline k (by omega)) (hplace k) v w).1 ⟨l1, l2, .inl h⟩, .inr ⟨by rw [← middle_halfway]; exact h3, by rw [← middle_halfway]; exact h4⟩⟩
  have from' : ∀ {k v w}, Segment test m.pos t.cut k v w → Wanted (projectionSort scale m.pos sort) (insideMiddle test m.pos) t.cut k v w ∨
      Wanted (projectionSort scale m.pos sort) (insideMiddle test m.pos) t.cut k w v := by
    rintro k v w ⟨hn, h⟩
    by_cases h2 : (t.cut k).length = 2
    · obtain ⟨a, b, hab⟩ := List.length_eq_two.1 h2
      obtain ⟨hv, hw, hne, -⟩ := hn
      rw [hab] at hv hw
      simp only [List.mem_cons, List.not_mem_nil, or_false] at hv hw
      rcases hv with rfl | rfl <;> rcases hw with rfl | rfl
      · exact absurd rfl hne
      · exact .inl (.inl hab)
      · exact .inr (.inl hab)
      · exact absurd rfl hne
    · have h := h.resolve_left h2
      rw [← middle_halfway] at h
      have hl : 2 < (t.cut k).length := by
        obtain ⟨hv, hw, hne, -⟩ := hn
        rcases hcut : t.cut k with _ | ⟨a, _ | ⟨b, _ | ⟨c, r⟩⟩⟩
        · rw [hcut] at hv; simp at hv
        · rw [hcut] at hv hw; simp at hv hw; exact absurd (hv.trans hw.symm) hne
        · rw [hcut] at h2; simp at h2
        · simp
      obtain ⟨l1, l2, hc⟩ := (C93_order scale hscale sort hsort m.pos _ (by omega) (nd k) (hline k (by omega)) (hplace k) v w).2 hn
      rcases hc with hc | hc
      · exact .inl (.inr ⟨hl, ⟨l1, l2, hc⟩, h.1, h.2⟩)
      · refine .inr (.inr ⟨hl, ⟨l1, l2, hc⟩, ?_⟩)
        unfold insideMiddle
        rw [middle_comm]
        exact ⟨h.1, h.2⟩
  refine { G with only := ?_, every := ?_, faces := ?_ }
  · intro e he
    obtain ⟨k, v, w, h, hj⟩ := G.only e he
    exact ⟨k, v, w, toSeg h, hj⟩
  · intro k v w h
    rcases from' h with h | h
    · exact G.every k v w h
    · obtain ⟨e, he, hj⟩ := G.every k w v h
      exact ⟨e, he, joins_swap.1 hj⟩
  · intro f e
    rw [G.faces]
    constructor
    · rintro ⟨he, k, v, w, h, hf, hj⟩
      exact ⟨he, k, v, w, toSeg h, hf, hj⟩
    · rintro ⟨he, k, v, w, h, hf, hj⟩
      rcases from' h with h | h
      · exact ⟨he, k, v, w, h, hf, hj⟩
      · exact ⟨he, k, w, v, h, hf, joins_swap.1 hj⟩

/-- **C93 (degrees).** In the situation of `C93_segments`, when seen along the line of any two faces with more or less than two common points the test follows the even-odd
rule: the point where edge `e` pierces a face is the end of exactly one cut edge if `e` is a border edge of its mesh, and of exactly two otherwise, also for faces with any
number of common points. -/
theorem C93_degree {K : Type} [Field K] [LinearOrder K] [IsStrictOrderedRing K] {d : V3 K} {sm cs ps : Mesh (V3 K)} (M : MergeOf d sm cs ps)
    (hs : Preproc.ValidMesh sm.numVertices (Extract.polygons sm)) (hc : Preproc.ValidMesh cs.numVertices (Extract.polygons cs)) (R : List (Nat × Nat × V3 K))
    (t : Tables (V3 K)) (T : Recorded ps sm.numFaces ps.numVertices R t) (hx : CrossTested ps sm.numFaces t.reg) (hnd : t.reg.Nodup) (h1 : OneCommonEdge ps)
    (m : Mesh (V3 K)) (hplace : ∀ k, ∀ v ∈ t.cut k, ∀ w ∈ t.cut k, m.pos v = m.pos w → v = w) (test : Nat → V3 K → Bool)
    (heo : ∀ k, t.cut k ≠ [] → (t.cut k).length ≠ 2 → EvenOdd test m.pos k (t.cut k)) (st : St (V3 K)) (G : GraphOf m (Segment test m.pos t.cut) st)
    (i e f : Nat) (hi : t.reg[i]? = some (e, f)) :
    (BorderEdge ps e → (st.incoming (ps.numVertices + i)).length = 1) ∧ (¬ BorderEdge ps e → (st.incoming (ps.numVertices + i)).length = 2) := by
  have K' := known_of M hs hc T hx
  refine degree_of K' hnd h1 G (fun k v w h => ⟨h.1.2.2.1, h.1.1, h.1.2.1⟩) (fun k v w h => segment_symm h) ?_ hi
  intro k v hv
  by_cases h2 : (t.cut k).length = 2
  · obtain ⟨a, b, hab⟩ := List.length_eq_two.1 h2
    have hlt := K'.lt hab
    have hseg : Segment test m.pos t.cut k a b := segment_two hab (by omega) (hplace k)
    have hv' := hv
    rw [hab] at hv'
    simp only [List.mem_cons, List.not_mem_nil, or_false] at hv'
    have hw : ∀ w', Segment test m.pos t.cut k v w' → (w' = a ∨ w' = b) ∧ v ≠ w' := by
      intro w' h
      have := h.1.2.1
      rw [hab] at this
      simp only [List.mem_cons, List.not_mem_nil, or_false] at this
      exact ⟨this, h.1.2.2.1⟩
    rcases hv' with rfl | rfl
    · exact ⟨b, hseg, fun w' h => (hw w' h).1.resolve_left (fun e => (hw w' h).2 e.symm)⟩
    · exact ⟨a, segment_symm hseg, fun w' h => (hw w' h).1.resolve_right (fun e => (hw w' h).2 e.symm)⟩
  · obtain ⟨w, ⟨n, b⟩, hu⟩ := segment_unique (heo k (by intro h; rw [h] at hv; simp at hv) h2) (hplace k) hv
    exact ⟨w, ⟨n, .inr b⟩, fun w' h => hu w' ⟨h.1, h.2.resolve_left h2⟩⟩

/-- **C93 (closed meshes).** If neither mesh has a border, every point is the end of exactly two cut edges: the cut graph consists of closed loops, whatever the shapes of the
faces are. -/
theorem C93_closed {K : Type} [Field K] [LinearOrder K] [IsStrictOrderedRing K] {d : V3 K} {sm cs ps : Mesh (V3 K)} (M : MergeOf d sm cs ps)
    (hs : Preproc.ValidMesh sm.numVertices (Extract.polygons sm)) (hc : Preproc.ValidMesh cs.numVertices (Extract.polygons cs)) (R : List (Nat × Nat × V3 K))
    (t : Tables (V3 K)) (T : Recorded ps sm.numFaces ps.numVertices R t) (hx : CrossTested ps sm.numFaces t.reg) (hnd : t.reg.Nodup) (h1 : OneCommonEdge ps)
    (m : Mesh (V3 K)) (hplace : ∀ k, ∀ v ∈ t.cut k, ∀ w ∈ t.cut k, m.pos v = m.pos w → v = w) (test : Nat → V3 K → Bool)
    (heo : ∀ k, t.cut k ≠ [] → (t.cut k).length ≠ 2 → EvenOdd test m.pos k (t.cut k)) (st : St (V3 K)) (G : GraphOf m (Segment test m.pos t.cut) st)
    (hcl : ∀ e, LiveE ps e → ¬ BorderEdge ps e) (i : Nat) (hi : i < t.reg.length) : (st.incoming (ps.numVertices + i)).length = 2 := by
  have K' := known_of M hs hc T hx
  have hr : t.reg[i]? = some ((t.reg[i]).1, (t.reg[i]).2) := List.getElem?_eq_getElem hi
  exact (C93_degree M hs hc R t T hx hnd h1 m hplace test heo st G i _ _ hr).2 (hcl _ (K'.live _ (List.mem_of_getElem? hr)))

end Stage

/-! ## A concrete case: a face in the shape of a U, and a triangle through its two arms -/

def demoU : Mesh (V3 ℚ) := (runAll (Mesh.empty ⟨0, 0, 0⟩) [.addVertex ⟨0, 0, 0⟩, .addVertex ⟨5, 0, 0⟩, .addVertex ⟨5, 4, 0⟩, .addVertex ⟨4, 4, 0⟩, .addVertex ⟨4, 1, 0⟩,
  .addVertex ⟨1, 1, 0⟩, .addVertex ⟨1, 4, 0⟩, .addVertex ⟨0, 4, 0⟩, .addFace [0, 1, 2, 3, 4, 5, 6, 7]]).getD (Mesh.empty ⟨0, 0, 0⟩)

def demoKnife : Mesh (V3 ℚ) := (runAll (Mesh.empty ⟨0, 0, 0⟩) [.addVertex ⟨-20, 2, -10⟩, .addVertex ⟨20, 2, -10⟩, .addVertex ⟨0, 2, 30⟩,
  .addFace [0, 1, 2]]).getD (Mesh.empty ⟨0, 0, 0⟩)

def demoPsU : Mesh (V3 ℚ) := ((soup 0 demoU demoKnife none).map (fun S => S.ps)).getD demoU

/-- The places where the edges of the U pierce the triangle. -/
def demoTestU (e f : Nat) : Outcome (V3 ℚ) :=
  if f ≠ 1 then .miss
  else if e = 0 then .point ⟨5, 2, 0⟩ else if e = 2 then .point ⟨4, 2, 0⟩ else if e = 4 then .point ⟨1, 2, 0⟩ else if e = 6 then .point ⟨0, 2, 0⟩ else .miss

/-- The candidates in an order that is not that along the line. -/
def demoCandU : List (Nat × List Nat) := [(2, [1]), (0, [1]), (6, [1]), (4, [1]), (1, [1]), (8, [0])]

def demoTablesU : Tables (V3 ℚ) := (sequential demoPsU 8 1 11 demoTestU demoCandU).getD .empty

def demoSort (l : List (Nat × ℚ)) : List (Nat × ℚ) := l.insertionSort (fun a b => a.2 ≤ b.2)

/-- Inside of face `f`, by the test of the code: the U has the normal (0,0,1), the triangle the normal (0,-1,0). -/
def demoInside (f : Nat) (p : V3 ℚ) : Bool :=
  if f = 0 then decide (pointInPolygon3 ⟨0, 0, 1⟩ 1 2 p [⟨0, 0, 0⟩, ⟨5, 0, 0⟩, ⟨5, 4, 0⟩, ⟨4, 4, 0⟩, ⟨4, 1, 0⟩, ⟨1, 1, 0⟩, ⟨1, 4, 0⟩, ⟨0, 4, 0⟩] = .inside)
  else decide (pointInPolygon3 ⟨0, -1, 0⟩ 1 1 p [⟨-20, 2, -10⟩, ⟨20, 2, -10⟩, ⟨0, 2, 30⟩] = .inside)

def demoM0 : Mesh (V3 ℚ) := addPoints (copyVertices ⟨0, 0, 0⟩ demoPsU).1 demoTablesU.pts

theorem demoSort_sorts : Sorts demoSort := by
  intro l
  have : Std.Total (fun a b : Nat × ℚ => a.2 ≤ b.2) := ⟨fun a b => le_total a.2 b.2⟩
  have : IsTrans (Nat × ℚ) (fun a b => a.2 ≤ b.2) := ⟨fun a b c => le_trans⟩
  refine ⟨List.perm_insertionSort _ l, ?_⟩
  refine (List.pairwise_insertionSort (fun a b : Nat × ℚ => a.2 ≤ b.2) l).imp ?_
  intro a b h
  exact not_lt.2 h

/-- The hypotheses of `C93_segments` are met: a face in the shape of a U, whose two arms a triangle goes through, with four common points on one line. Only the edges inside
of the two arms are made, not the one across the gap. -/
theorem C93_demo : ∃ (sm cs ps : Mesh (V3 ℚ)) (R : List (Nat × Nat × V3 ℚ)) (t : Tables (V3 ℚ)) (m : Mesh (V3 ℚ)), MergeOf (⟨0, 0, 0⟩ : V3 ℚ) sm cs ps ∧
    Preproc.ValidMesh sm.numVertices (polygons sm) ∧ Preproc.ValidMesh cs.numVertices (polygons cs) ∧ Recorded ps sm.numFaces ps.numVertices R t ∧
    CrossTested ps sm.numFaces t.reg ∧ t.reg.Nodup ∧ OneCommonEdge ps ∧ (∀ k, t.cut k ≠ [] → k ∈ [(0, 1)]) ∧ m = addPoints (copyVertices ⟨0, 0, 0⟩ ps).1 t.pts ∧
    (∀ k, 2 ≤ (t.cut k).length → OnOneLine m.pos (t.cut k)) ∧ (∀ k, ∀ v ∈ t.cut k, ∀ w ∈ t.cut k, m.pos v = m.pos w → v = w) ∧ Sorts demoSort ∧
    t.cut (0, 1) = [11, 12, 13, 14] ∧ projectionSort (fun _ => 1) m.pos demoSort (t.cut (0, 1)) = [13, 14, 11, 12] ∧
    (cutEdges ps ps.numVertices t.reg (projectionSort (fun _ => 1) m.pos demoSort) (insideMiddle demoInside m.pos) t.cut [(0, 1)] m).map
      (fun st => (st.cutEdges.map (fun e => (st.m0.edgeVertex e 0, st.m0.edgeVertex e 1)), st.faceEdges 0, st.faceEdges 1)) =
      some ([(14, 13), (12, 11)], [0, 1], [0, 1]) := by
  have I : Intact (⟨0, 0, 0⟩ : V3 ℚ) demoU := runAll_intact (⟨0, 0, 0⟩ : V3 ℚ) _ (by decide +kernel) (by decide +kernel)
  have J : Intact (⟨0, 0, 0⟩ : V3 ℚ) demoKnife := runAll_intact (⟨0, 0, 0⟩ : V3 ℚ) _ (by decide +kernel) (by decide +kernel)
  have nVs : demoU.numVertices = 8 := by decide +kernel
  have nVc : demoKnife.numVertices = 3 := by decide +kernel
  have hs : Preproc.ValidMesh demoU.numVertices (polygons demoU) := by
    rw [nVs, show polygons demoU = [[1, 2, 3, 4, 5, 6, 7, 0]] by decide +kernel]
    refine ⟨?_, by decide⟩
    intro f hf
    obtain rfl : f = [1, 2, 3, 4, 5, 6, 7, 0] := by simpa using hf
    exact ⟨by decide, by decide, by decide⟩
  have hc : Preproc.ValidMesh demoKnife.numVertices (polygons demoKnife) := by
    rw [nVc, show polygons demoKnife = [[1, 2, 0]] by decide +kernel]
    refine ⟨?_, by decide⟩
    intro f hf
    obtain rfl : f = [1, 2, 0] := by simpa using hf
    exact ⟨by decide, by decide, by decide⟩
  obtain ⟨S, hS, M, -⟩ := C60_soup 0 I J hc none (by intro t h; cases h)
  have hps : demoPsU = S.ps := by unfold demoPsU; rw [hS]; rfl
  rw [← hps] at M
  have nF : demoU.numFaces = 1 := by decide +kernel
  have nV' : demoPsU.numVertices = 11 := by decide +kernel
  have nF' : demoPsU.numFaces = 2 := by decide +kernel
  have fh0 : demoPsU.fh 0 = [0, 2, 4, 6, 8, 10, 12, 14] := by decide +kernel
  have fh1 : demoPsU.fh 1 = [16, 18, 20] := by decide +kernel
  have on : ∀ e, e < 11 → OnFace demoPsU e (e / 8) := by
    intro e he
    unfold OnFace
    have : e < 8 ∨ 8 ≤ e := by omega
    rcases this with h | h
    · rw [show e / 8 = 0 by omega, fh0]
      refine ⟨2 * e, ?_, by unfold edgeOf; omega⟩
      have : e = 0 ∨ e = 1 ∨ e = 2 ∨ e = 3 ∨ e = 4 ∨ e = 5 ∨ e = 6 ∨ e = 7 := by omega
      rcases this with rfl | rfl | rfl | rfl | rfl | rfl | rfl | rfl <;> simp
    · rw [show e / 8 = 1 by omega, fh1]
      refine ⟨2 * e, ?_, by unfold edgeOf; omega⟩
      have : e = 8 ∨ e = 9 ∨ e = 10 := by omega
      rcases this with rfl | rfl | rfl <;> simp
  have other : ∀ e f, e < 11 → f = 1 - e / 8 → OtherSide 1 (e / 8) f := by
    intro e f he hf
    unfold OtherSide; omega
  have sided : ∀ x ∈ demoCandU, ∀ f ∈ x.2, Sided demoPsU 8 1 x.1 f := by
    have hcd : ∀ x ∈ demoCandU, x.1 < 11 ∧ ∀ f ∈ x.2, f = 1 - x.1 / 8 := by decide +kernel
    intro x hx f hf
    obtain ⟨h1, h2⟩ := hcd x hx
    have := C63_valid M hs hc (e := x.1) (f := x.1 / 8) (g := f) (by rw [nF']; omega) (on _ h1) (by rw [nF]; exact other _ _ h1 (h2 f hf))
    rwa [nVs, nF] at this
  have hrun := C63_sequential demoPsU 8 1 11 demoTestU demoCandU sided
  have hsome : sequential demoPsU 8 1 11 demoTestU demoCandU = some demoTablesU := by
    unfold demoTablesU
    cases h : sequential demoPsU 8 1 11 demoTestU demoCandU with
    | none =>
      have : (sequential demoPsU 8 1 11 demoTestU demoCandU).isSome = true := by decide +kernel
      rw [h] at this; cases this
    | some t => rfl
  have hreg : demoTablesU.reg = [(2, 1), (0, 1), (6, 1), (4, 1)] := by decide +kernel
  have hrec := hrun.2 _ hsome
  have hcut : demoTablesU.cut (0, 1) = [11, 12, 13, 14] := by decide +kernel
  have hkey : ∀ k, demoTablesU.cut k ≠ [] → k = (0, 1) := by
    rintro ⟨s, c⟩ hk
    obtain ⟨v, hv⟩ := List.exists_mem_of_ne_nil _ hk
    obtain ⟨i, e, f, -, hi, h1, h2, h3⟩ := ((hrec.cut s c).2 v).1 hv
    have hf : f = 1 := by
      have := List.mem_of_getElem? hi
      rw [hreg] at this
      simp only [List.mem_cons, List.not_mem_nil, or_false, Prod.mk.injEq] at this
      omega
    have : s = 0 := by omega
    rcases h3 with ⟨-, h⟩ | ⟨-, h⟩
    · rw [this, ← h, hf]
    · omega
  have p11 : demoM0.pos 11 = ⟨4, 2, 0⟩ := by decide +kernel
  have p12 : demoM0.pos 12 = ⟨5, 2, 0⟩ := by decide +kernel
  have p13 : demoM0.pos 13 = ⟨0, 2, 0⟩ := by decide +kernel
  have p14 : demoM0.pos 14 = ⟨1, 2, 0⟩ := by decide +kernel
  refine ⟨demoU, demoKnife, demoPsU, _, demoTablesU, demoM0, M, hs, hc, by rw [nF, nV']; exact hrec, ?_, by rw [hreg]; decide, ?_,
    fun k hk => by rw [hkey k hk]; simp, rfl, ?_, ?_, demoSort_sorts, hcut, by decide +kernel, by decide +kernel⟩
  · rw [hreg, nF]
    intro x hx
    simp only [List.mem_cons, List.not_mem_nil, or_false] at hx
    have : x.1 < 8 ∧ x.2 = 1 := by rcases hx with rfl | rfl | rfl | rfl <;> decide
    exact ⟨0, by rw [nF']; omega, by have := on x.1 (by omega); rwa [show x.1 / 8 = 0 by omega] at this, by rw [nF']; omega, by unfold OtherSide; omega⟩
  · intro e e' g g' he he' hne h1 h2
    exfalso
    have hlt : e < 11 := by
      have := he.1
      have hE : demoPsU.nE = 11 := by decide +kernel
      omega
    have hn : ∀ e, e < 11 → demoPsU.face (halfedgeOf e 1) = none := by
      have : ∀ e ∈ List.range 11, demoPsU.face (halfedgeOf e 1) = none := by decide +kernel
      exact fun e he => this e (List.mem_range.2 he)
    unfold OnEdge at h1 h2
    rw [hn e hlt] at h1 h2
    simp only [reduceCtorEq, or_false] at h1 h2
    rw [h1] at h2
    exact hne (Option.some.inj h2)
  · intro k hk
    rw [hkey k (by intro h; rw [h] at hk; simp at hk), hcut]
    refine ⟨⟨0, 2, 0⟩, ⟨1, 0, 0⟩, ?_⟩
    intro v hv
    simp only [List.mem_cons, List.not_mem_nil, or_false] at hv
    rcases hv with rfl | rfl | rfl | rfl
    · exact ⟨4, by rw [p11]; norm_num⟩
    · exact ⟨5, by rw [p12]; norm_num⟩
    · exact ⟨0, by rw [p13]; norm_num⟩
    · exact ⟨1, by rw [p14]; norm_num⟩
  · intro k v hv w hw h
    have hk := hkey k (by intro h; rw [h] at hv; simp at hv)
    rw [hk, hcut] at hv hw
    have : ∀ v ∈ [11, 12, 13, 14], ∀ w ∈ [11, 12, 13, 14], demoM0.pos v = demoM0.pos w → v = w := by decide +kernel
    exact this v hv w hw h

/-! The test of the code along the line of the demo. -/

/-- 1 if `p`, else 0. -/
def tally (p : Prop) [Decidable p] : Nat := if p then 1 else 0

theorem tally_false : tally False = 0 := rfl

/-- A number different from `c` is before or after it. -/
theorem tally_split {c s : ℚ} (h : s ≠ c) : tally (c - s < 0) = tally (c < s) ∧ tally (0 < c - s) + tally (c < s) = 1 := by
  unfold tally
  rcases lt_or_gt_of_ne h with h | h
  · rw [if_neg (by linarith), if_neg (by linarith), if_pos (by linarith)]; exact ⟨rfl, rfl⟩
  · rw [if_pos (by linarith), if_pos h, if_neg (by linarith)]; exact ⟨rfl, rfl⟩

theorem demoU_loop (s : ℚ) : crossLoop 0 0 (⟨0 - s, -4 - -2⟩ : V2 ℚ) [⟨0 - s, 0 - -2⟩, ⟨5 - s, 0 - -2⟩, ⟨5 - s, -4 - -2⟩, ⟨4 - s, -4 - -2⟩, ⟨4 - s, -1 - -2⟩, ⟨1 - s, -1 - -2⟩, ⟨1 - s, -4 - -2⟩,
    ⟨0 - s, -4 - -2⟩] = some (tally (0 < 0 - s) + tally (0 < 5 - s) + tally (0 < 4 - s) + tally (0 < 1 - s),
      tally (0 - s < 0) + tally (5 - s < 0) + tally (4 - s < 0) + tally (1 - s < 0)) := by
  have q : ∀ c : ℚ, ((c - s) * (-4 - -2) - (c - s) * (0 - -2)) / (-4 - -2 - (0 - -2)) = c - s := by intro c; ring
  have q1 : ∀ c : ℚ, ((c - s) * (0 - -2) - (c - s) * (-4 - -2)) / (0 - -2 - (-4 - -2)) = c - s := by intro c; ring
  have q2 : ∀ c : ℚ, ((c - s) * (-1 - -2) - (c - s) * (-4 - -2)) / (-1 - -2 - (-4 - -2)) = c - s := by intro c; ring
  have q3 : ∀ c : ℚ, ((c - s) * (-4 - -2) - (c - s) * (-1 - -2)) / (-4 - -2 - (-1 - -2)) = c - s := by intro c; ring
  have n0 : ¬ ((0:ℚ) - -2 = 0) := by norm_num
  have n1 : ¬ ((-4:ℚ) - -2 = 0) := by norm_num
  have n2 : ¬ ((-1:ℚ) - -2 = 0) := by norm_num
  simp only [crossLoop, edgeCross, q, q1, q2, q3, n0, n1, n2, and_false, if_false]
  have e1 : decide ((0:ℚ) - -2 > 0) = true := by norm_num
  have e2 : decide ((-4:ℚ) - -2 > 0) = false := by norm_num
  have e3 : decide ((-1:ℚ) - -2 > 0) = true := by norm_num
  have f1 : decide ((0:ℚ) - -2 < 0) = false := by norm_num
  have f2 : decide ((-4:ℚ) - -2 < 0) = true := by norm_num
  have f3 : decide ((-1:ℚ) - -2 < 0) = false := by norm_num
  simp only [e1, e2, e3, f1, f2, f3, bne_self_eq_false, Bool.false_and, Bool.true_bne, Bool.not_false, Bool.true_and, Bool.false_bne, decide_eq_true_eq]
  have h : ∀ (p : Prop) [Decidable p] (r : Nat), (if p then r + 1 else r) = r + tally p := by intro p _ r; unfold tally; split <;> rfl
  simp only [gt_iff_lt, Bool.false_eq_true, if_false, h, tally_false, Nat.zero_add, Nat.add_zero]

theorem demoTri_loop (s : ℚ) : crossLoop 0 0 (⟨0 - s, 30 - 0⟩ : V2 ℚ) [⟨-20 - s, -10 - 0⟩, ⟨20 - s, -10 - 0⟩, ⟨0 - s, 30 - 0⟩] =
    some (tally (0 < -15 - s) + tally (0 < 15 - s), tally (-15 - s < 0) + tally (15 - s < 0)) := by
  have q : ((-20 - s) * (30 - 0) - (0 - s) * (-10 - 0)) / (30 - 0 - (-10 - 0)) = -15 - s := by ring
  have q1 : ((0 - s) * (-10 - 0) - (20 - s) * (30 - 0)) / (-10 - 0 - (30 - 0)) = 15 - s := by ring
  have n0 : ¬ ((30:ℚ) - 0 = 0) := by norm_num
  have n1 : ¬ ((-10:ℚ) - 0 = 0) := by norm_num
  simp only [crossLoop, edgeCross, q, q1, n0, n1, and_false, if_false]
  have e1 : decide ((30:ℚ) - 0 > 0) = true := by norm_num
  have e2 : decide ((-10:ℚ) - 0 > 0) = false := by norm_num
  have f1 : decide ((30:ℚ) - 0 < 0) = false := by norm_num
  have f2 : decide ((-10:ℚ) - 0 < 0) = true := by norm_num
  simp only [e1, e2, f1, f2, bne_self_eq_false, Bool.false_and, Bool.true_bne, Bool.not_false, Bool.true_and, Bool.false_bne, decide_eq_true_eq]
  have h : ∀ (p : Prop) [Decidable p] (r : Nat), (if p then r + 1 else r) = r + tally p := by intro p _ r; unfold tally; split <;> rfl
  simp only [gt_iff_lt, Bool.false_eq_true, if_false, h, tally_false, Nat.zero_add, Nat.add_zero]

theorem proj0 (x y z : ℚ) : project (⟨0, 0, 1⟩ : V3 ℚ) 1 2 ⟨x, y, z⟩ = ⟨x, -y⟩ := by
  unfold project comp
  norm_num

theorem proj1 (x y z : ℚ) : project (⟨0, -1, 0⟩ : V3 ℚ) 1 1 ⟨x, y, z⟩ = ⟨x, z⟩ := by
  unfold project comp
  norm_num

/-- The answer of the code from the numbers of crossings on both sides. -/
theorem parity_answer (r l : Nat) : ((if r % 2 ≠ l % 2 then InCode.edge else if r % 2 = 1 then InCode.inside else InCode.outside) = InCode.inside) ↔
    (r % 2 = l % 2 ∧ r % 2 = 1) := by
  split
  · simp; omega
  · split
    · simp; omega
    · simp; omega

/-- The test of the U along the line, by the code. -/
theorem demoInside_U (s : ℚ) (h : s ∉ ({0, 1, 4, 5} : Finset ℚ)) : demoInside 0 ⟨s, 2, 0⟩ = true ↔ Odd ((({0, 1, 4, 5} : Finset ℚ).filter (fun x => x < s)).card) := by
  simp only [Finset.mem_insert, Finset.mem_singleton, not_or] at h
  obtain ⟨h0, h1, h4, h5⟩ := h
  have hc : (({0, 1, 4, 5} : Finset ℚ).filter (fun x => x < s)).card = tally (0 < s) + (tally (1 < s) + (tally (4 < s) + tally (5 < s))) := by
    rw [Finset.card_filter, Finset.sum_insert (by decide), Finset.sum_insert (by decide), Finset.sum_insert (by decide), Finset.sum_singleton]
    rfl
  rw [hc]
  unfold demoInside pointInPolygon3 pointInPolygon
  simp only [if_true, List.map_cons, List.map_nil, proj0, List.getLastD, List.getLast]
  rw [show (-(4:ℚ) - -2) = -4 - -2 from rfl]
  have := demoU_loop s
  simp only [neg_zero]
  rw [this]
  simp only
  rw [decide_eq_true_iff, parity_answer, Nat.odd_iff]
  have a0 := tally_split h0
  have a1 := tally_split h1
  have a4 := tally_split h4
  have a5 := tally_split h5
  omega

/-- The test of the triangle along the line, by the code. -/
theorem demoInside_knife (s : ℚ) (h : s ∉ ({-15, 15} : Finset ℚ)) : demoInside 1 ⟨s, 2, 0⟩ = true ↔ Odd ((({-15, 15} : Finset ℚ).filter (fun x => x < s)).card) := by
  simp only [Finset.mem_insert, Finset.mem_singleton, not_or] at h
  obtain ⟨h0, h1⟩ := h
  have hc : (({-15, 15} : Finset ℚ).filter (fun x => x < s)).card = tally (-15 < s) + tally (15 < s) := by
    rw [Finset.card_filter, Finset.sum_insert (by decide), Finset.sum_singleton]
    rfl
  rw [hc]
  unfold demoInside pointInPolygon3 pointInPolygon
  rw [if_neg (by decide)]
  simp only [List.map_cons, List.map_nil, proj1, List.getLastD, List.getLast]
  have := demoTri_loop s
  rw [this]
  simp only
  rw [decide_eq_true_iff, parity_answer, Nat.odd_iff]
  have a0 := tally_split h0
  have a1 := tally_split h1
  omega

/-- The hypothesis `EvenOdd` of `C93_degree` is met by the U and the triangle, with the test of the code: the border of the U crosses the line at 0, 1, 4 and 5, that of the
triangle at -15 and 15, outside of the U. -/
theorem C93_even_odd_demo : demoTablesU.cut (0, 1) = [11, 12, 13, 14] ∧ EvenOdd demoInside demoM0.pos (0, 1) (demoTablesU.cut (0, 1)) := by
  have hcut : demoTablesU.cut (0, 1) = [11, 12, 13, 14] := by decide +kernel
  refine ⟨hcut, ?_⟩
  rw [hcut]
  have hl : ∀ s : ℚ, onLine (⟨0, 2, 0⟩ : V3 ℚ) ⟨1, 0, 0⟩ s = ⟨s, 2, 0⟩ := by
    intro s
    unfold onLine
    ext <;> simp
  refine ⟨⟨0, 2, 0⟩, ⟨1, 0, 0⟩, fun v => (demoM0.pos v).x, {0, 1, 4, 5}, {-15, 15}, by decide, ?_, by decide, by decide, by decide, ?_, ?_, ?_⟩
  · intro v hv
    rw [hl]
    have : ∀ v ∈ [11, 12, 13, 14], demoM0.pos v = ⟨(demoM0.pos v).x, 2, 0⟩ := by decide +kernel
    exact this v hv
  · intro s hs; rw [hl]; exact demoInside_U s hs
  · intro s hs; rw [hl]; exact demoInside_knife s hs
  · intro s
    rw [hl]
    have hx : (∃ v ∈ [11, 12, 13, 14], (demoM0.pos v).x = s) ↔ s ∈ ({0, 1, 4, 5} : Finset ℚ) := by
      have p11 : (demoM0.pos 11).x = 4 := by decide +kernel
      have p12 : (demoM0.pos 12).x = 5 := by decide +kernel
      have p13 : (demoM0.pos 13).x = 0 := by decide +kernel
      have p14 : (demoM0.pos 14).x = 1 := by decide +kernel
      simp only [List.mem_cons, List.not_mem_nil, or_false, exists_eq_or_imp, exists_eq_left, p11, p12, p13, p14, Finset.mem_insert, Finset.mem_singleton]
      constructor
      · rintro (h | h | h | h) <;> simp [← h]
      · rintro (h | h | h | h) <;> simp [h]
    rw [hx]
    have in2 : ∀ s ∈ ({0, 1, 4, 5} : Finset ℚ), demoInside 1 ⟨s, 2, 0⟩ = true := by decide +kernel
    have out1 : ∀ s ∈ ({-15, 15} : Finset ℚ), demoInside 0 ⟨s, 2, 0⟩ = false := by decide +kernel
    constructor
    · intro h; exact .inl ⟨h, in2 s h⟩
    · rintro (h | ⟨h, h'⟩)
      · exact h.1
      · rw [out1 s h] at h'; cases h'

end Mcut.CutEdges
