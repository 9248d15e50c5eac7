import Verif.Lemmas.C69
import Verif.Props.C67

/-!
# C69: the cut is the intersection of the two surfaces
-/
namespace Mcut.Whole
open Mcut.Hmesh Mcut.Registry Mcut.Pairs Mcut.Extract Mcut.CutEdges
variable {K : Type} [Field K] [LinearOrder K] [IsStrictOrderedRing K] {d : Box.V3 K} {sm cs ps : Mesh (Box.V3 K)}

theorem live_face (M : MergeOf d sm cs ps) {f : Nat} (hf : f < ps.numFaces) : LiveF ps f := ⟨by rw [← M.intact.numF]; exact hf, by rw [M.intact.noRemoved.2]; simp⟩

/-- **C69 (pairs of faces).** For triangle meshes in which no triangle of one mesh lies in the plane of a triangle of the other: when no candidate pair violates general
position, the tables list for a pair of triangles either nothing, and then the triangles are disjoint, or two points, and then their intersection is the segment between
these. No edge is registered twice with the same face. -/
theorem C69_pairs (M : MergeOf d sm cs ps) (hs : Preproc.ValidMesh sm.numVertices (polygons sm)) (hc : Preproc.ValidMesh cs.numVertices (polygons cs)) {l : Nat → K}
    (G : Triangles ps sm.numFaces l) {test : Nat → Nat → Outcome (Box.V3 K)} (hT : TestOf ps l test) {bot top : K} {bS bC : Nat → Box.BBox K}
    (B : Boxed bot top bS bC sm.numFaces ps) {cand : List (Nat × List Nat)} (hcand : CandidatesOf bot top bS bC sm.numFaces ps cand) (hno : ¬ Violated test cand)
    {t : Tables (Box.V3 K)} (T : Recorded ps sm.numFaces ps.numVertices (hits test cand) t) :
    t.reg.Nodup ∧ CrossTested ps sm.numFaces t.reg ∧ (∀ k, t.cut k ≠ [] → (t.cut k).length = 2 ∧ k.1 < sm.numFaces ∧ sm.numFaces ≤ k.2 ∧ k.2 < ps.numFaces) ∧
    ∀ s c, s < sm.numFaces → sm.numFaces ≤ c → c < ps.numFaces →
      (t.cut (s, c) = [] ∧ ∀ x, ¬ (InFace ps s x ∧ InFace ps c x)) ∨
      ∃ v w, t.cut (s, c) = [v, w] ∧ place ps.numVertices t.pts v ≠ place ps.numVertices t.pts w ∧
        ∀ x, (InFace ps s x ∧ InFace ps c x) ↔ Geom.OnSeg3 (place ps.numVertices t.pts v) (place ps.numVertices t.pts w) x := by
  have hnd : t.reg.Nodup := by rw [T.reg]; exact C63_unique test cand hcand.keys hcand.faces
  have hx : CrossTested ps sm.numFaces t.reg := by
    intro x hx
    rw [T.reg] at hx
    obtain ⟨y, hy, rfl⟩ := List.mem_map.1 hx
    have := ((C63_points test cand y.1 y.2.1 y.2.2).1 hy).1
    exact ((hcand.pairs _ _).1 this).1
  have Kn := known_of M hs hc T hx
  have S := C61_valid_inputs M hs hc
  have hsub : sm.numFaces ≤ ps.numFaces := by rw [M.numF]; omega
  have main : ∀ s c, s < sm.numFaces → sm.numFaces ≤ c → c < ps.numFaces →
      (t.cut (s, c) = [] ∧ ∀ x, ¬ (InFace ps s x ∧ InFace ps c x)) ∨
      ∃ v w, t.cut (s, c) = [v, w] ∧ place ps.numVertices t.pts v ≠ place ps.numVertices t.pts w ∧
        ∀ x, (InFace ps s x ∧ InFace ps c x) ↔ Geom.OnSeg3 (place ps.numVertices t.pts v) (place ps.numVertices t.pts w) x := by
    intro s c h1 h2 h3
    obtain ⟨a, b, e, hcs, Ts⟩ := G.testable s (by omega)
    obtain ⟨a', b', e', hcc, Tc⟩ := G.testable c h3
    have ls := live_face M (f := s) (by omega)
    have lc := live_face M h3
    obtain ⟨Es, es1, es2, es3, es4⟩ := tri_edges M.intact.reach S ls hcs
    obtain ⟨Ec, ec1, ec2, ec3, ec4⟩ := tri_edges M.intact.reach S lc hcc
    obtain ⟨rs, r1, r2, r3⟩ := side_results M hT B hcand hno h3 hcc Tc _ Es
      (fun x hx => ⟨es3 x hx, s, by omega, (es2 x).2 hx, .inl ⟨h1, h2⟩⟩) es4
    obtain ⟨rs', r1', r2', r3'⟩ := side_results M hT B hcand hno (by omega) hcs Ts _ Ec
      (fun x hx => ⟨ec3 x hx, c, h3, (ec2 x).2 hx, .inr ⟨h1, h2⟩⟩) ec4
    have hperm := cut_points T hnd h1 h2 es1 ec1 Kn.live (fun x => by rw [onEdge_iff M.intact.reach ls, es2]) (fun x => by rw [onEdge_iff M.intact.reach lc, ec2])
    rw [← r3, ← r3'] at hperm
    have hpts : Geom.points (rs ++ rs') = Geom.points rs ++ Geom.points rs' := by unfold Geom.points; rw [List.filterMap_append]
    rw [← hpts] at hperm
    have hin : ∀ x, (InFace ps s x ∧ InFace ps c x) ↔ (Geom.InTriangle a b e x ∧ Geom.InTriangle a' b' e' x) := by
      intro x
      have one : ∀ {f : Nat} {p q r : Geom.V3 K}, corners ps f = [p, q, r] → (InFace ps f x ↔ Geom.InTriangle p q r x) := by
        intro f p q r h
        constructor
        · rintro ⟨p', q', r', h', hi⟩
          rw [h] at h'
          simp only [List.cons.injEq, and_true] at h'
          obtain ⟨rfl, rfl, rfl⟩ := h'
          exact hi
        · exact fun hi => ⟨p, q, r, h, hi⟩
      rw [one hcs, one hcc]
    have hpl : ¬ (Geom.OnPlaneOf a b e a' ∧ Geom.OnPlaneOf a b e b' ∧ Geom.OnPlaneOf a b e e') := by
      obtain ⟨x, hx', hnx⟩ := G.apart s c h1 h2 h3 _ _ _ hcs
      rw [hcc] at hx'
      simp only [List.mem_cons, List.not_mem_nil, or_false] at hx'
      rintro ⟨p1, p2, p3⟩
      rcases hx' with rfl | rfl | rfl
      · exact hnx p1
      · exact hnx p2
      · exact hnx p3
    rcases Geom.C65_cut_edge a b e a' b' e' (l s) (l c) Ts Tc hpl rs rs' r1 r1' (by rw [List.mem_append]; tauto) with ⟨z1, z2⟩ | ⟨p, q, z1, z2, z3⟩
    · left
      rw [z1] at hperm
      refine ⟨List.map_eq_nil_iff.1 hperm.eq_nil, fun x hx' => z2 x ((hin x).1 hx')⟩
    · right
      rw [z1] at hperm
      have hlen : (t.cut (s, c)).length = 2 := by simpa using hperm.length_eq
      obtain ⟨v, w, hvw⟩ := List.length_eq_two.1 hlen
      refine ⟨v, w, hvw, ?_⟩
      rw [hvw] at hperm
      simp only [List.map_cons, List.map_nil] at hperm
      rcases perm_pair hperm with ⟨e1, e2⟩ | ⟨e1, e2⟩
      · rw [e1, e2]
        exact ⟨z2, fun x => (hin x).trans (z3 x)⟩
      · rw [e1, e2]
        exact ⟨z2.symm, fun x => ((hin x).trans (z3 x)).trans Geom.onSeg3_swap⟩
  refine ⟨hnd, hx, ?_, main⟩
  rintro ⟨s, c⟩ hk
  obtain ⟨v, hv⟩ := List.exists_mem_of_ne_nil _ hk
  obtain ⟨i, e, f, -, hi, g1, g2, g3⟩ := ((T.cut s c).2 v).1 hv
  have hc' : c < ps.numFaces := by
    obtain ⟨f', -, -, q3, -⟩ := hx _ (List.mem_of_getElem? hi)
    rcases g3 with ⟨-, rfl⟩ | ⟨h, -⟩
    · exact q3
    · have C := C29_consistent M.intact.reach
      have hl := Kn.live _ (List.mem_of_getElem? hi)
      have key : ∀ i, i < 2 → ps.face (halfedgeOf e i) = some c → c < ps.numFaces := by
        intro i hi h
        have := (C.chain (halfedgeOf e i) c (by
          rw [(reachable_wf M.intact.reach).liveH_iff, show halfedgeOf e i / 2 = e by unfold halfedgeOf; omega]; exact hl) h).1.1
        rw [M.intact.numF]; exact this
      rcases h with h | h
      · exact key 0 (by omega) h
      · exact key 1 (by omega) h
  refine ⟨?_, g1, g2, hc'⟩
  rcases main s c g1 g2 hc' with ⟨h, -⟩ | ⟨v, w, h, -⟩
  · exact absurd h hk
  · rw [h]; rfl

/-- **C69 (the cut).** In the situation of `C69_pairs`, whatever the iteration order of the map of pairs: the cut edges are found, and the union of the segments they
stand for is exactly the intersection of the two surfaces. -/
theorem C69_intersection (M : MergeOf d sm cs ps) (hs : Preproc.ValidMesh sm.numVertices (polygons sm)) (hc : Preproc.ValidMesh cs.numVertices (polygons cs)) {l : Nat → K}
    (G : Triangles ps sm.numFaces l) {test : Nat → Nat → Outcome (Box.V3 K)} (hT : TestOf ps l test) {bot top : K} {bS bC : Nat → Box.BBox K}
    (B : Boxed bot top bS bC sm.numFaces ps) {cand : List (Nat × List Nat)} (hcand : CandidatesOf bot top bS bC sm.numFaces ps cand) (hno : ¬ Violated test cand)
    {t : Tables (Box.V3 K)} (T : Recorded ps sm.numFaces ps.numVertices (hits test cand) t)
    (keys : List (Nat × Nat)) (hkeys : ∀ k, k ∈ keys ↔ t.cut k ≠ []) (sort : List Nat → List Nat) (inside : Nat → Nat → Nat → Bool) :
    ∃ st, cutEdges ps ps.numVertices t.reg sort inside t.cut keys (addPoints (copyVertices d ps).1 t.pts) = some st ∧
      CutGraph (addPoints (copyVertices d ps).1 t.pts) t.cut st ∧
      ∀ x, ((∃ s, s < sm.numFaces ∧ InFace ps s x) ∧ ∃ c, sm.numFaces ≤ c ∧ c < ps.numFaces ∧ InFace ps c x) ↔
        ∃ e ∈ st.cutEdges, Geom.OnSeg3 (pt (st.m0.pos (st.m0.edgeVertex e 0))) (pt (st.m0.pos (st.m0.edgeVertex e 1))) x := by
  obtain ⟨hnd, hx, h2, hp⟩ := C69_pairs M hs hc G hT B hcand hno T
  obtain ⟨st, s1, s2⟩ := C66_edges M hs hc _ t T hx (fun k hk => (h2 k hk).1) keys hkeys sort inside
  refine ⟨st, s1, s2, fun x => ?_⟩
  obtain ⟨-, -, hpos⟩ := addPoints_bare t.pts _ _ (copyVertices_bare M.intact)
  have hplace : ∀ k v, v ∈ t.cut k → pt (st.m0.pos v) = place ps.numVertices t.pts v := by
    rintro ⟨s, c⟩ v hv
    obtain ⟨i, e, f, rfl, hi, -⟩ := ((T.cut s c).2 v).1 hv
    have hlen : t.pts.length = t.reg.length := by rw [T.pts, T.reg]; simp
    have hi' : i < t.pts.length := by rw [hlen]; exact (List.getElem?_eq_some_iff.1 hi).1
    rw [s2.mesh.pos, hpos i t.pts[i] (List.getElem?_eq_getElem hi')]
    unfold place
    rw [Nat.add_sub_cancel_left, List.getD_eq_getElem?_getD, List.getElem?_eq_getElem hi']
    rfl
  have hseg : ∀ k v w e, t.cut k = [v, w] → Joins st.m0 e v w →
      (Geom.OnSeg3 (pt (st.m0.pos (st.m0.edgeVertex e 0))) (pt (st.m0.pos (st.m0.edgeVertex e 1))) x ↔
        Geom.OnSeg3 (place ps.numVertices t.pts v) (place ps.numVertices t.pts w) x) := by
    intro k v w e hk hj
    rw [← hplace k v (by rw [hk]; simp), ← hplace k w (by rw [hk]; simp)]
    rcases hj with ⟨j1, j2⟩ | ⟨j1, j2⟩
    · rw [j1, j2]
    · rw [j1, j2]; exact Geom.onSeg3_swap
  constructor
  · rintro ⟨⟨s, a1, a2⟩, c, b1, b2, b3⟩
    rcases hp s c a1 b1 b2 with ⟨-, h⟩ | ⟨v, w, hcut, -, h⟩
    · exact absurd ⟨a2, b3⟩ (h x)
    · obtain ⟨e, he, hj⟩ := s2.every _ _ _ hcut
      exact ⟨e, he, (hseg _ _ _ _ hcut hj).2 ((h x).1 ⟨a2, b3⟩)⟩
  · rintro ⟨e, he, hxs⟩
    obtain ⟨⟨s, c⟩, v, w, hcut, hj⟩ := s2.only e he
    obtain ⟨-, g1, g2, g3⟩ := h2 (s, c) (by rw [hcut]; simp)
    rcases hp s c g1 g2 g3 with ⟨h, -⟩ | ⟨v', w', hcut', -, h⟩
    · rw [h] at hcut; cases hcut
    · rw [hcut] at hcut'
      obtain ⟨rfl, rfl⟩ : v = v' ∧ w = w' := by simpa using hcut'
      obtain ⟨i1, i2⟩ := (h x).2 ((hseg _ _ _ _ hcut hj).1 hxs)
      exact ⟨⟨s, g1, i1⟩, c, g2, g3, i2⟩

theorem vertex_sides {a b c p : Geom.V3 K} (h : Geom.OnSide a b c p) : Geom.InTriangle a b c p := by
  rcases h with ⟨t, h0, h1, rfl⟩ | ⟨t, h0, h1, rfl⟩ | ⟨t, h0, h1, rfl⟩
  · exact ⟨1 - t, t, 0, by linarith, h0, le_refl _, by ring, by simp only [Geom.lerp3]; congr 1 <;> ring⟩
  · exact ⟨0, 1 - t, t, le_refl _, by linarith, h0, by ring, by simp only [Geom.lerp3]; congr 1 <;> ring⟩
  · exact ⟨t, 0, 1 - t, h0, le_refl _, by linarith, by ring, by simp only [Geom.lerp3]; congr 1 <;> ring⟩

/-- One pair of an edge and a triangle: a violation exactly if they touch. -/
theorem violation_iff {a b c : Geom.V3 K} {l : K} (T : Geom.Testable a b c l) (q r : Geom.V3 K) {t : Geom.TestResult K} (h : Geom.EdgeFace [a, b, c] l q r (some t)) :
    t = .violation ↔ Touches a b c q r := by
  by_cases hp : Geom.OnPlaneOf a b c q ∧ Geom.OnPlaneOf a b c r
  · have := Geom.C62_coplanar a b c l T.proper T.length T.regular q r hp.1 hp.2 _ h
    constructor
    · intro ht
      subst ht
      by_contra hn
      unfold Touches at hn
      have h2 := this.2 ⟨fun h => hn (.inl h), fun h => hn (.inr (.inl h))⟩
      cases h2
    · rintro (h | h | h)
      · exact Option.some.inj (this.1 (.inl h))
      · exact Option.some.inj (this.1 (.inr h))
      · exact absurd hp h.1
  · obtain ⟨t2, e, -, -, h3⟩ := Geom.C62_triangle a b c l T.proper T.length T.regular q r hp _ h
    obtain rfl := Option.some.inj e
    rw [h3]
    constructor
    · rintro ⟨p, p1, p2, p3 | rfl | rfl⟩
      · exact .inr (.inr ⟨hp, p, p1, p3⟩)
      · exact .inl p2
      · exact .inr (.inl p2)
    · rintro (h | h | ⟨-, p, p1, p2⟩)
      · exact ⟨q, Geom.onSeg3_left _ _, h, .inr (.inl rfl)⟩
      · exact ⟨r, Geom.onSeg3_swap.1 (Geom.onSeg3_left _ _), h, .inr (.inr rfl)⟩
      · exact ⟨p, p1, vertex_sides p2, .inl p2⟩

/-- **C69 (violations).** For triangle meshes, a candidate pair violates general position exactly if some edge of one mesh touches some face of the other; none is missed
because of the boxes. -/
theorem C69_violation (M : MergeOf d sm cs ps) {l : Nat → K} (G : Triangles ps sm.numFaces l) {test : Nat → Nat → Outcome (Box.V3 K)} (hT : TestOf ps l test) {bot top : K}
    {bS bC : Nat → Box.BBox K} (B : Boxed bot top bS bC sm.numFaces ps) {cand : List (Nat × List Nat)} (hcand : CandidatesOf bot top bS bC sm.numFaces ps cand) :
    Violated test cand ↔ NotGeneral ps sm.numFaces := by
  have hlive : ∀ e f, f < ps.numFaces → OnFace ps e f → LiveE ps e := by
    intro e f hf h
    have := (onEdge_iff M.intact.reach (live_face M hf)).2 h
    exact this.1
  have hvi : ∀ e g a b c, LiveE ps e → g < ps.numFaces → corners ps g = [a, b, c] →
      (test e g = .violation ↔ Touches a b c (pt (ps.pos (ps.edgeVertex e 0))) (pt (ps.pos (ps.edgeVertex e 1)))) := by
    intro e g a b c he hg hcn
    obtain ⟨r, r1, r2⟩ := hT e g he hg
    obtain ⟨a', b', c', hcn', Tg⟩ := G.testable g hg
    rw [hcn] at hcn'
    simp only [List.cons.injEq, and_true] at hcn'
    obtain ⟨rfl, rfl, rfl⟩ := hcn'
    rw [hcn] at r1
    rw [r2, ← violation_iff Tg _ _ r1]
    cases r <;> simp [outcome]
  constructor
  · rintro ⟨⟨e, fs⟩, hx, g, hg, hv⟩
    obtain ⟨⟨f, f1, f2, f3, f4⟩, -⟩ := (hcand.pairs e g).1 ⟨fs, hx, hg⟩
    obtain ⟨a, b, c, hcn, -⟩ := G.testable g f3
    exact ⟨e, f, g, a, b, c, f1, f2, f3, f4, hcn, (hvi e g a b c (hlive e f f1 f2) f3 hcn).1 hv⟩
  · rintro ⟨e, f, g, a, b, c, f1, f2, f3, f4, hcn, ht⟩
    have hmeet : Box.intersect (edgeBox bot top ps e) (if g < sm.numFaces then bS g else bC (g - sm.numFaces)) = true := by
      rcases ht with h | h | ⟨-, p, p1, p2⟩
      · exact boxes_meet B f3 hcn (Geom.onSeg3_left _ _) h
      · exact boxes_meet B f3 hcn (Geom.onSeg3_swap.1 (Geom.onSeg3_left _ _)) h
      · exact boxes_meet B f3 hcn p1 (vertex_sides p2)
    obtain ⟨fs, hx, hg⟩ := (hcand.pairs e g).2 ⟨⟨f, f1, f2, f3, f4⟩, hmeet⟩
    exact ⟨(e, fs), hx, g, hg, (hvi e g a b c (hlive e f f1 f2) f3 hcn).2 ht⟩

/-- **C69 (no pairs).** When the boxes of no face of the source mesh and no face of the cut mesh meet, the surfaces are disjoint. -/
theorem C69_disjoint (M : MergeOf d sm cs ps) {bot top : K} {bS bC : Nat → Box.BBox K} (B : Boxed bot top bS bC sm.numFaces ps)
    (hno : ∀ f g, f < sm.numFaces → g < cs.numFaces → Box.intersect (bS f) (bC g) = false) (s c : Nat) (hs : s < sm.numFaces) (h1 : sm.numFaces ≤ c)
    (h2 : c < ps.numFaces) (x : Geom.V3 K) : ¬ (InFace ps s x ∧ InFace ps c x) := by
  rintro ⟨⟨a, b, e, hcs, i1⟩, a', b', e', hcc, i2⟩
  have hn := M.numF
  have mem : ∀ {g : Nat} {a b c : Geom.V3 K}, g < ps.numFaces → corners ps g = [a, b, c] → Geom.InTriangle a b c x →
      Box.Mem (unpt x) (if g < sm.numFaces then bS g else bC (g - sm.numFaces)) := by
    intro g a b c hg hcg hi
    refine mem_sub ?_ (B g hg)
    obtain ⟨p, q, r, hv, rfl, rfl, rfl⟩ := corners_three hcg
    rw [hv]
    exact mem_box_triangle (boxOf_mem bot top _ (by simp)) (boxOf_mem bot top _ (by simp)) (boxOf_mem bot top _ (by simp)) hi
  have m1 := mem (by omega) hcs i1
  have m2 := mem h2 hcc i2
  rw [if_pos hs] at m1
  rw [if_neg (by omega)] at m2
  have := (Box.C37_intersect_iff _ _ ⟨_, m1⟩ ⟨_, m2⟩).2 ⟨_, m1, m2⟩
  rw [hno s (c - sm.numFaces) hs (by omega)] at this
  cases this

theorem CandidatesOf.perm {bot top : K} {bS bC : Nat → Box.BBox K} {smF : Nat} {cand cand' : List (Nat × List Nat)} (h : CandidatesOf bot top bS bC smF ps cand)
    (hp : cand'.Perm cand) : CandidatesOf bot top bS bC smF ps cand' :=
  ⟨(hp.map _).nodup_iff.2 h.keys, fun x hx => h.faces x (hp.mem_iff.1 hx), fun e g => by
    rw [← h.pairs e g]; exact exists_congr (fun fs => by rw [hp.mem_iff])⟩

/-- **C69.** From the face pairs of the broad phase to the cut, for triangle meshes in which no triangle of one mesh lies in the plane of a triangle of the other, with exact
arithmetic. For every number of threads, every iteration order of the hash maps and every execution of the recording stage: it reports a violation exactly if some edge of one mesh
touches a face of the other in a way that is not general; otherwise the cut edges are found and their union is exactly the intersection of the two surfaces. -/
theorem C69_cut (M : MergeOf d sm cs ps) (hs : Preproc.ValidMesh sm.numVertices (polygons sm)) (hc : Preproc.ValidMesh cs.numVertices (polygons cs)) {l : Nat → K}
    (G : Triangles ps sm.numFaces l) (bot top : K) (bS bC : Nat → Box.BBox K) (B : Boxed bot top bS bC sm.numFaces ps)
    (out : List (Nat × Nat)) (hnd : out.Nodup) (hout : ∀ f g, (f, g) ∈ out ↔ f < sm.numFaces ∧ g < cs.numFaces ∧ Box.intersect (bS f) (bC g) = true) (hne : out ≠ [])
    (threads : Option Nat) (hth : ∀ t, threads = some t → 0 < t ∧ sm.numFaces + cs.numFaces + 1024 ≤ 2 ^ 32) :
    ∃ E, candidates bot top bS bC sm.numFaces ps (faceMap sm.numFaces cs.numFaces out) threads = some E ∧
      ∀ cand, Enumerates E cand → ∀ test, TestOf ps l test → ∀ res, Leaves ps sm.numVertices sm.numFaces test cand res →
        (res = none ↔ NotGeneral ps sm.numFaces) ∧
        ∀ t, res = some t → ∀ (keys : List (Nat × Nat)), (∀ k, k ∈ keys ↔ t.cut k ≠ []) → ∀ (sort : List Nat → List Nat) (inside : Nat → Nat → Nat → Bool),
          ∃ st, cutEdges ps ps.numVertices t.reg sort inside t.cut keys (addPoints (copyVertices d ps).1 t.pts) = some st ∧
            ∀ x, ((∃ s, s < sm.numFaces ∧ InFace ps s x) ∧ ∃ c, sm.numFaces ≤ c ∧ c < ps.numFaces ∧ InFace ps c x) ↔
              ∃ e ∈ st.cutEdges, Geom.OnSeg3 (pt (st.m0.pos (st.m0.edgeVertex e 0))) (pt (st.m0.pos (st.m0.edgeVertex e 1))) x := by
  have hn := M.numF
  obtain ⟨E, hE, hsort, hmem⟩ := C61_complete M (C61_valid_inputs M hs hc) bot top bS bC
    (fun f hf => by have := B f (by omega); rwa [if_pos hf] at this)
    (fun f hf => by have := B (sm.numFaces + f) (by omega); rwa [if_neg (by omega), Nat.add_sub_cancel_left] at this) out hnd hout hne threads hth
  refine ⟨E, hE, fun cand hen test hT res hres => ?_⟩
  have hcand : CandidatesOf bot top bS bC sm.numFaces ps cand := by
    refine ⟨hen.1, fun x hx => ?_, fun e g => ?_⟩
    · exact (hsort x.1 x.2 ((hen.2 x.1 x.2).1 hx)).imp (fun h => Nat.ne_of_lt h)
    · rw [← hmem e g]
      constructor
      · rintro ⟨fs, h1, h2⟩
        rw [(hen.2 e fs).1 h1]; exact h2
      · intro h
        cases hee : E e with
        | none => rw [hee] at h; simp at h
        | some fs => rw [hee] at h; exact ⟨fs, (hen.2 e fs).2 hee, h⟩
  have sided : ∀ {cand'}, CandidatesOf bot top bS bC sm.numFaces ps cand' → ∀ x ∈ cand', ∀ f ∈ x.2, Sided ps sm.numVertices sm.numFaces x.1 f := by
    intro cand' hc' x hx f hf
    obtain ⟨⟨f', f1, f2, f3, f4⟩, -⟩ := (hc'.pairs x.1 f).1 ⟨x.2, hx, hf⟩
    exact C63_valid M hs hc f1 f2 f4
  have key : ∃ cand', CandidatesOf bot top bS bC sm.numFaces ps cand' ∧ (res = none ↔ Violated test cand') ∧
      ∀ t, res = some t → Recorded ps sm.numFaces ps.numVertices (hits test cand') t := by
    rcases hres with rfl | ⟨M', W, s, hp, hr, hd, rfl⟩
    · have := C63_sequential ps sm.numVertices sm.numFaces ps.numVertices test cand (sided hcand)
      exact ⟨cand, hcand, this.1, this.2⟩
    · have hc' := hcand.perm hp
      have := C63_parallel ps sm.numVertices sm.numFaces ps.numVertices test M' W (sided hc') hc'.keys s hr hd
      exact ⟨_, hc', this.1, this.2⟩
  obtain ⟨cand', hc', k1, k2⟩ := key
  have hviol := C69_violation M G hT B hc'
  refine ⟨by rw [k1, hviol], fun t ht keys hkeys sort inside => ?_⟩
  have hno : ¬ Violated test cand' := by rw [← k1, ht]; simp
  obtain ⟨st, s1, -, s2⟩ := C69_intersection M hs hc G hT B hc' hno (k2 t ht) keys hkeys sort inside
  exact ⟨st, s1, s2⟩

/-- There is always such a test function. -/
theorem test_exists {l : Nat → K} {smF : Nat} (G : Triangles ps smF l) : ∃ test, TestOf ps l test := by
  classical
  have : ∀ e g, ∃ o : Outcome (Box.V3 K), g < ps.numFaces → ∃ r, Geom.EdgeFace (corners ps g) (l g) (pt (ps.pos (ps.edgeVertex e 0))) (pt (ps.pos (ps.edgeVertex e 1))) (some r) ∧
      o = outcome r := by
    intro e g
    by_cases hg : g < ps.numFaces
    · obtain ⟨a, b, c, hcn, T⟩ := G.testable g hg
      obtain ⟨t, t1, -⟩ := result_unique T (pt (ps.pos (ps.edgeVertex e 0))) (pt (ps.pos (ps.edgeVertex e 1)))
      exact ⟨outcome t, fun _ => ⟨t, by rw [hcn]; exact t1, rfl⟩⟩
    · exact ⟨.miss, fun h => absurd h hg⟩
  choose test ht using this
  exact ⟨test, fun e g _ hg => ht e g hg⟩

/-- Two triangles that pass through each other. -/
def triA : Mesh (Box.V3 ℚ) :=
  (runAll (Mesh.empty ⟨0, 0, 0⟩) [.addVertex ⟨0, 0, 0⟩, .addVertex ⟨4, 0, 0⟩, .addVertex ⟨0, 4, 0⟩, .addFace [0, 1, 2]]).getD (Mesh.empty ⟨0, 0, 0⟩)
def triB : Mesh (Box.V3 ℚ) :=
  (runAll (Mesh.empty ⟨0, 0, 0⟩) [.addVertex ⟨1, 1, -1⟩, .addVertex ⟨1, 1, 3⟩, .addVertex ⟨1, 9, 1⟩, .addFace [0, 1, 2]]).getD (Mesh.empty ⟨0, 0, 0⟩)
def triPs : Mesh (Box.V3 ℚ) := ((soup 0 triA triB none).map (fun S => S.ps)).getD triA

/-- The hypotheses of `C69_cut` are met by two triangles that pass through each other. -/
theorem C69_demo : ∃ (d : Box.V3 ℚ) (sm cs ps : Mesh (Box.V3 ℚ)) (l : Nat → ℚ) (bot top : ℚ) (bS bC : Nat → Box.BBox ℚ) (out : List (Nat × Nat))
    (test : Nat → Nat → Outcome (Box.V3 ℚ)), MergeOf d sm cs ps ∧ Preproc.ValidMesh sm.numVertices (polygons sm) ∧ Preproc.ValidMesh cs.numVertices (polygons cs) ∧
    Triangles ps sm.numFaces l ∧ Boxed bot top bS bC sm.numFaces ps ∧ out.Nodup ∧
    (∀ f g, (f, g) ∈ out ↔ f < sm.numFaces ∧ g < cs.numFaces ∧ Box.intersect (bS f) (bC g) = true) ∧ out ≠ [] ∧ TestOf ps l test ∧ ¬ NotGeneral ps sm.numFaces := by
  have I : Intact ⟨0, 0, 0⟩ triA := runAll_intact _ _ (by decide +kernel) (by decide +kernel)
  have J : Intact ⟨0, 0, 0⟩ triB := runAll_intact _ _ (by decide +kernel) (by decide +kernel)
  have vm : Preproc.ValidMesh 3 [[1, 2, 0]] := by
    refine ⟨?_, by decide⟩
    intro f hf
    obtain rfl : f = [1, 2, 0] := by simpa using hf
    exact ⟨by decide, by decide, by decide⟩
  have nA : triA.numFaces = 1 := by decide +kernel
  have nB : triB.numFaces = 1 := by decide +kernel
  have hv : Preproc.ValidMesh triA.numVertices (polygons triA) := by
    rw [show triA.numVertices = 3 by decide +kernel, show polygons triA = [[1, 2, 0]] by decide +kernel]; exact vm
  have hw : Preproc.ValidMesh triB.numVertices (polygons triB) := by
    rw [show triB.numVertices = 3 by decide +kernel, show polygons triB = [[1, 2, 0]] by decide +kernel]; exact vm
  obtain ⟨S, hS, M, -⟩ := C60_soup 0 I J hw none (by intro t h; cases h)
  have hps : triPs = S.ps := by unfold triPs; rw [hS]; rfl
  rw [← hps] at M
  have nP : triPs.numFaces = 2 := by rw [M.numF, nA, nB]
  have k0 : corners triPs 0 = [⟨4, 0, 0⟩, ⟨0, 4, 0⟩, ⟨0, 0, 0⟩] := by decide +kernel
  have k1 : corners triPs 1 = [⟨1, 9, 1⟩, ⟨1, 1, -1⟩, ⟨1, 1, 3⟩] := by decide +kernel
  have p0 : Geom.planeCoefficients ([⟨4, 0, 0⟩, ⟨0, 4, 0⟩, ⟨0, 0, 0⟩] : List (Geom.V3 ℚ)) = (⟨0, 0, 16⟩, 0, 2) := by decide +kernel
  have p1 : Geom.planeCoefficients ([⟨1, 9, 1⟩, ⟨1, 1, -1⟩, ⟨1, 1, 3⟩] : List (Geom.V3 ℚ)) = (⟨-32, 0, 0⟩, -32, 0) := by decide +kernel
  have T0 : Geom.Testable (⟨4, 0, 0⟩ : Geom.V3 ℚ) ⟨0, 4, 0⟩ ⟨0, 0, 0⟩ 16 := by
    refine ⟨⟨by decide +kernel, ?_⟩, ?_, ?_⟩
    · rintro ⟨t, ht⟩
      have h1 := congrArg Geom.V3.x ht; have h2 := congrArg Geom.V3.y ht
      simp only [Geom.lerp3] at h1 h2
      linarith
    · rw [p0]; exact ⟨by norm_num, by norm_num⟩
    · rw [p0]; unfold Geom.Singular; norm_num
  have T1 : Geom.Testable (⟨1, 9, 1⟩ : Geom.V3 ℚ) ⟨1, 1, -1⟩ ⟨1, 1, 3⟩ 32 := by
    refine ⟨⟨by decide +kernel, ?_⟩, ?_, ?_⟩
    · rintro ⟨t, ht⟩
      have h1 := congrArg Geom.V3.y ht; have h2 := congrArg Geom.V3.z ht
      simp only [Geom.lerp3] at h1 h2
      linarith
    · rw [p1]; exact ⟨by norm_num, by norm_num⟩
    · rw [p1]; unfold Geom.Singular; norm_num
  have two : ∀ f, f < 2 → f = 0 ∨ f = 1 := by intro f hf; omega
  have G : Triangles triPs triA.numFaces (fun f => if f = 0 then 16 else 32) := by
    constructor
    · intro f hf
      rw [nP] at hf
      rcases two f hf with rfl | rfl
      · exact ⟨_, _, _, k0, T0⟩
      · exact ⟨_, _, _, k1, T1⟩
    · intro s c h1 h2 h3 p q r hcn
      rw [nA] at h1 h2
      rw [nP] at h3
      obtain rfl : s = 0 := by omega
      obtain rfl : c = 1 := by omega
      rw [k0] at hcn
      simp only [List.cons.injEq, and_true] at hcn
      obtain ⟨rfl, rfl, rfl⟩ := hcn
      refine ⟨⟨1, 1, 3⟩, by rw [k1]; simp, ?_⟩
      rintro ⟨u, v, h⟩
      have := congrArg Geom.V3.z h
      simp at this
  obtain ⟨test, hT⟩ := test_exists G
  let bS : Nat → Box.BBox ℚ := fun f => Box.boxOfPoints (-100) 100 ((triPs.verticesAroundFace f).map triPs.pos)
  let bC : Nat → Box.BBox ℚ := fun f => Box.boxOfPoints (-100) 100 ((triPs.verticesAroundFace (1 + f)).map triPs.pos)
  refine ⟨_, triA, triB, triPs, _, -100, 100, bS, bC, [(0, 0)], test, M, hv, hw, G, ?_, by decide, ?_, by decide, hT, ?_⟩
  · intro g hg
    rw [nP] at hg
    rw [nA]
    rcases two g hg with rfl | rfl
    · exact Box.sub_refl _
    · exact Box.sub_refl _
  · intro f g
    have hi : Box.intersect (bS 0) (bC 0) = true := by decide +kernel
    rw [nA, nB]
    constructor
    · intro h
      obtain ⟨rfl, rfl⟩ : f = 0 ∧ g = 0 := by simpa using h
      exact ⟨by omega, by omega, hi⟩
    · rintro ⟨h1, h2, -⟩
      obtain rfl : f = 0 := by omega
      obtain rfl : g = 0 := by omega
      simp
  · -- no edge touches
    have f0 : triPs.fh 0 = [0, 2, 4] := by decide +kernel
    have f1 : triPs.fh 1 = [6, 8, 10] := by decide +kernel
    have tests : ∀ e, e < 6 → ∀ g a b c, g = (if e < 3 then 1 else 0) → corners triPs g = [a, b, c] →
        ¬ Touches a b c (pt (triPs.pos (triPs.edgeVertex e 0))) (pt (triPs.pos (triPs.edgeVertex e 1))) := by
      have run : ∀ (a b c : Geom.V3 ℚ) (l : ℚ) (q r : Geom.V3 ℚ), Geom.Testable a b c l →
          Geom.edgeFaceTest (Geom.segmentPlaneType a b c q r)
            (fun p => Geom.pointInPolygon3 (Geom.planeCoefficients [a, b, c]).1 l (Geom.planeCoefficients [a, b, c]).2.2 p [a, b, c])
            (Geom.segmentPlane (Geom.planeCoefficients [a, b, c]).1 (Geom.planeCoefficients [a, b, c]).2.1 q r).2 q r ≠ .violation → ¬ Touches a b c q r := by
        intro a b c l q r T hne ht
        exact hne ((violation_iff T q r ⟨_, ⟨.found 0 1 2, by unfold Geom.ChooseThree; rw [if_neg (by simp)], rfl⟩, rfl⟩).2 ht)
      intro e he g a b c hg hcn
      by_cases h3 : e < 3
      · rw [if_pos h3] at hg
        subst hg
        rw [k1] at hcn
        simp only [List.cons.injEq, and_true] at hcn
        obtain ⟨rfl, rfl, rfl⟩ := hcn
        refine run _ _ _ _ _ _ T1 ?_
        have : e = 0 ∨ e = 1 ∨ e = 2 := by omega
        rcases this with rfl | rfl | rfl <;> decide +kernel
      · rw [if_neg h3] at hg
        subst hg
        rw [k0] at hcn
        simp only [List.cons.injEq, and_true] at hcn
        obtain ⟨rfl, rfl, rfl⟩ := hcn
        refine run _ _ _ _ _ _ T0 ?_
        have : e = 3 ∨ e = 4 ∨ e = 5 := by omega
        rcases this with rfl | rfl | rfl <;> decide +kernel
    rintro ⟨e, f, g, a, b, c, h1, ⟨h, hh, rfl⟩, h3, h4, hcn, ht⟩
    rw [nP] at h1 h3
    unfold OtherSide at h4
    rw [nA] at h4
    rcases two f h1 with rfl | rfl
    · rw [f0] at hh
      obtain rfl : g = 1 := by omega
      have he : edgeOf h < 3 := by
        simp only [List.mem_cons, List.not_mem_nil, or_false] at hh
        unfold edgeOf; omega
      exact tests _ (by omega) 1 a b c (by rw [if_pos he]) hcn ht
    · rw [f1] at hh
      obtain rfl : g = 0 := by omega
      have he : ¬ edgeOf h < 3 ∧ edgeOf h < 6 := by
        simp only [List.mem_cons, List.not_mem_nil, or_false] at hh
        unfold edgeOf; omega
      exact tests _ he.2 0 a b c (by rw [if_neg he.1]) hcn ht

end Mcut.Whole
