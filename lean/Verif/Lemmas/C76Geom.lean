import Verif.Lemmas.C76Main
import Verif.Props.C73
import Mathlib.Tactic.Linarith
import Mathlib.Tactic.LinearCombination
import Mathlib.Tactic.Positivity

/-! Lemmas for C76: the earlier stages, and the sign test. -/
namespace Mcut.Trace
open Mcut.Hmesh Mcut.Registry Mcut.CutEdges Mcut.Boundary Mcut.Extract Mcut.Pairs
variable {P : Type} {d : P} {sm cs ps : Mesh P} {c : CutEdges.St P}

/-- After the earlier stages. -/
theorem crossing_of (M : MergeOf d sm cs ps) (hs : Preproc.ValidMesh sm.numVertices (polygons sm)) (hc : Preproc.ValidMesh cs.numVertices (polygons cs))
    (R : List (Nat × Nat × P)) (t : Tables P) (T : Recorded ps sm.numFaces ps.numVertices R t) (hx : CrossTested ps sm.numFaces t.reg)
    (h2 : ∀ k, t.cut k ≠ [] → (t.cut k).length = 2) (keys : List (Nat × Nat)) (hkeys : ∀ k, k ∈ keys ↔ t.cut k ≠ []) (csort : List Nat → List Nat)
    (inside : Nat → Nat → Nat → Bool)
    (hst : cutEdges ps ps.numVertices t.reg csort inside t.cut keys (addPoints (copyVertices d ps).1 t.pts) = some c) :
    Crossing ps sm.numVertices sm.numFaces ps.numVertices t.edges c t.reg := by
  have K := known_of M hs hc T hx
  obtain ⟨c', e', CG⟩ := C66_edges M hs hc R t T hx h2 keys hkeys csort inside
  rw [hst] at e'
  obtain rfl : c = c' := Option.some.inj e'
  refine ⟨?_, ?_, K.sided, ?_⟩
  · intro e f v he ho hv
    obtain ⟨i, e1, g, rfl, hi, rfl⟩ := ((T.edges e).2 v).1 hv
    have S := K.sided _ (List.mem_of_getElem? hi)
    have hof := S.one f ho
    have hk : ∃ k, (f = k.1 ∨ f = k.2) ∧ ps.numVertices + i ∈ t.cut k := by
      by_cases hf : f < sm.numFaces
      · refine ⟨(f, g), .inl rfl, ((K.cut f g).2 _).2 ⟨i, e1, g, rfl, hi, hf, ?_, .inl ⟨ho, rfl⟩⟩⟩
        exact S.face.2 (fun hce => by have := hof.2 hce; omega)
      · have hcf := hof.1 (by omega)
        refine ⟨(g, f), .inr rfl, ((K.cut g f).2 _).2 ⟨i, e1, g, rfl, hi, ?_, by omega, .inr ⟨ho, rfl⟩⟩⟩
        by_contra hn
        exact S.face.1 (by omega) hcf
    obtain ⟨k, hfk, hvk⟩ := hk
    have hlen := h2 k (List.ne_nil_of_mem hvk)
    obtain ⟨v, w, hvw⟩ := List.length_eq_two.1 hlen
    obtain ⟨a, ha, hj⟩ := CG.every k v w hvw
    refine ⟨a, (CG.faces f a).2 ⟨ha, k, v, w, hvw, hfk, hj⟩, ?_⟩
    rw [hvw, List.mem_cons, List.mem_singleton] at hvk
    unfold EndsIn
    rcases hj with ⟨h3, h4⟩ | ⟨h3, h4⟩ <;> omega
  · intro f e he v hv
    obtain ⟨-, k, a, b, hk, -, hj⟩ := (CG.faces f e).1 he
    have hvk : v ∈ t.cut k := by
      rw [hk, List.mem_cons, List.mem_singleton]
      unfold EndsIn at hv
      rcases hj with ⟨h3, h4⟩ | ⟨h3, h4⟩ <;> omega
    obtain ⟨_, _, -, hr, -⟩ := K.entry hvk
    rw [hr]; rfl
  · intro r hr
    obtain ⟨f, hf, hon, -, -⟩ := hx r hr
    have hlf : LiveF ps f := ⟨by rw [← M.intact.numF]; exact hf, by rw [M.intact.noRemoved.2]; simp⟩
    have hv := (edge_in_face M.intact.reach hlf hon).1
    have S := K.sided r hr
    have ho : OnEdge ps r.1 f := by
      obtain ⟨h, hh, he⟩ := hon
      have hfh := (((C29_consistent M.intact.reach).face_list f hlf).2.2 h hh).2
      unfold OnEdge
      rcases half_of he with h' | h'
      · left; rw [← h']; exact hfh
      · right; rw [← h']; exact hfh
    rw [← S.one f ho]
    rw [M.numF] at hf
    by_cases h' : f < sm.numFaces
    · rw [M.smFaces f h'] at hv
      have := (hs.1 _ (List.mem_map.2 ⟨f, List.mem_range.2 h', rfl⟩)).2.2 _ hv
      omega
    · have hrr := M.cmFaces (f - sm.numFaces) (by omega)
      rw [show sm.numFaces + (f - sm.numFaces) = f by omega] at hrr
      rw [hrr.mem_iff, List.mem_map] at hv
      obtain ⟨v, -, hv⟩ := hv
      omega

section geometry
open Mcut.Whole
variable {K : Type} [Field K] [LinearOrder K] [IsStrictOrderedRing K] {d : Box.V3 K} {sm cs ps : Mesh (Box.V3 K)} {c : CutEdges.St (Box.V3 K)}

/-- A point of the registry: strictly inside its triangle, strictly between the ends of its edge. -/
theorem point_place (M : MergeOf d sm cs ps) (hs : Preproc.ValidMesh sm.numVertices (polygons sm)) (hc : Preproc.ValidMesh cs.numVertices (polygons cs)) {l : Nat → K}
    (G : Triangles ps sm.numFaces l) {test : Nat → Nat → Outcome (Box.V3 K)} (hT : TestOf ps l test) {bot top : K} {bS bC : Nat → Box.BBox K}
    (B : Boxed bot top bS bC sm.numFaces ps) {cand : List (Nat × List Nat)} (hcand : Whole.CandidatesOf bot top bS bC sm.numFaces ps cand) (hno : ¬ Violated test cand)
    {t : Tables (Box.V3 K)} (T : Recorded ps sm.numFaces ps.numVertices (hits test cand) t)
    (keys : List (Nat × Nat)) (hkeys : ∀ k, k ∈ keys ↔ t.cut k ≠ []) (csort : List Nat → List Nat) (inside : Nat → Nat → Nat → Bool)
    (hst : cutEdges ps ps.numVertices t.reg csort inside t.cut keys (addPoints (copyVertices d ps).1 t.pts) = some c) {i e g : Nat} (hi : t.reg[i]? = some (e, g)) :
    ∃ a b c' s, corners ps g = [a, b, c'] ∧ Geom.NotCollinear3 a b c' ∧ Geom.StrictlyInside3 a b c' (pt (c.m0.pos (ps.numVertices + i))) ∧
      Between (pt (ps.pos (ps.edgeVertex e 0))) (pt (ps.pos (ps.edgeVertex e 1))) (pt (c.m0.pos (ps.numVertices + i))) s := by
  obtain ⟨hnd, hx, h2, -⟩ := C69_pairs M hs hc G hT B hcand hno T
  obtain ⟨st', e', CG⟩ := C66_edges M hs hc _ t T hx (fun k hk => (h2 k hk).1) keys hkeys csort inside
  rw [hst] at e'
  obtain rfl : c = st' := Option.some.inj e'
  obtain ⟨-, hold, hpos⟩ := addPoints_bare t.pts _ _ (copyVertices_bare M.intact)
  have Kn := known_of M hs hc T hx
  have he := Kn.live _ (List.mem_of_getElem? hi)
  rw [T.reg, List.getElem?_map] at hi
  cases hR : (hits test cand)[i]? with
  | none => rw [hR] at hi; simp at hi
  | some x =>
    rw [hR] at hi
    simp only [Option.map_some, Option.some.injEq, Prod.mk.injEq] at hi
    obtain ⟨rfl, rfl⟩ := hi
    have hp : c.m0.pos (ps.numVertices + i) = x.2.2 := by
      rw [CG.mesh.pos]
      exact hpos i _ (by rw [T.pts, List.getElem?_map, hR]; rfl)
    obtain ⟨hc1, hc2⟩ := (C63_points test cand x.1 x.2.1 x.2.2).1 (List.mem_of_getElem? hR)
    obtain ⟨⟨f, f1, f2, f3, f4⟩, -⟩ := (hcand.pairs _ _).1 hc1
    obtain ⟨r, r1, r2⟩ := hT x.1 x.2.1 he f3
    obtain ⟨a, b, c', hcn, Tg⟩ := G.testable x.2.1 f3
    rw [hcn] at r1
    rw [hc2] at r2
    obtain ⟨p, rfl, hpp⟩ : ∃ p, r = .point p ∧ x.2.2 = unpt p := by
      cases r with
      | miss => simp [outcome] at r2
      | violation => simp [outcome] at r2
      | point p => exact ⟨p, rfl, by simpa [outcome] using r2⟩
    have hqr : ¬ (Geom.OnPlaneOf a b c' (pt (ps.pos (ps.edgeVertex x.1 0))) ∧ Geom.OnPlaneOf a b c' (pt (ps.pos (ps.edgeVertex x.1 1)))) := by
      rintro ⟨h1, h3⟩
      have := Geom.C62_coplanar a b c' _ Tg.proper Tg.length Tg.regular _ _ h1 h3 _ r1
      by_cases hin : Geom.InTriangle a b c' (pt (ps.pos (ps.edgeVertex x.1 0))) ∨ Geom.InTriangle a b c' (pt (ps.pos (ps.edgeVertex x.1 1)))
      · have := this.1 hin; simp at this
      · have := this.2 ⟨fun h => hin (.inl h), fun h => hin (.inr h)⟩; simp at this
    obtain ⟨t', ht, hpt, -, -⟩ := Geom.C62_triangle a b c' _ Tg.proper Tg.length Tg.regular _ _ hqr _ r1
    obtain rfl := Option.some.inj ht
    obtain ⟨n1, n2, ⟨s, s0, s1, hs⟩, hin⟩ := (hpt p).1 rfl
    have hpl : Geom.OnPlaneOf a b c' p := Geom.inTriangle_plane ((Geom.inTriangle_iff Tg.proper).2 (.inl hin))
    have hs0 : s ≠ 0 := by
      rintro rfl
      rw [Geom.lerp3_zero] at hs
      rw [hs] at hpl; exact n1 hpl
    have hs1 : s ≠ 1 := by
      rintro rfl
      rw [Geom.lerp3_one] at hs
      rw [hs] at hpl; exact n2 hpl
    have hpe : pt (c.m0.pos (ps.numVertices + i)) = p := by rw [hp, hpp]; rfl
    refine ⟨a, b, c', s, hcn, Tg.proper, by rw [hpe]; exact hin, lt_of_le_of_ne s0 (Ne.symm hs0), lt_of_le_of_ne s1 hs1, ?_, ?_, ?_⟩
    all_goals rw [hpe, hs]; rfl

/-- The sign of the scalar product at a point strictly between the ends, on the plane. -/
theorem falls_iff {a b c q r p : Geom.V3 K} {s : K} (h : Geom.NotCollinear3 a b c) (hp : Geom.OnPlaneOf a b c p) (hb : Between q r p s) :
    (Geom.dot (Geom.triNormal a b c) (Geom.sub3 p q) < 0 ↔ 0 < Geom.dot (Geom.triNormal a b c) (Geom.sub3 q a) ∧ Geom.dot (Geom.triNormal a b c) (Geom.sub3 r a) < 0) := by
  obtain ⟨s0, s1, x, y, z⟩ := hb
  have hpl := (Geom.plane_dot h).1 hp
  generalize Geom.triNormal a b c = n at *
  have e1 : Geom.dot n (Geom.sub3 p q) = s * Geom.dot n (Geom.sub3 r q) := by
    unfold Geom.dot Geom.sub3; rw [x, y, z]; ring
  have e2 : Geom.dot n (Geom.sub3 q a) = - (s * Geom.dot n (Geom.sub3 r q)) := by
    unfold Geom.dot Geom.sub3 at *
    rw [x, y, z] at hpl
    simp only at *
    linear_combination (-1 : K) * hpl * (-1)
  have e3 : Geom.dot n (Geom.sub3 r a) = (1 - s) * Geom.dot n (Geom.sub3 r q) := by
    have : Geom.dot n (Geom.sub3 r a) = Geom.dot n (Geom.sub3 r q) + Geom.dot n (Geom.sub3 q a) := by unfold Geom.dot Geom.sub3; ring
    rw [this, e2]; ring
  rw [e1, e2, e3]
  have h1s : 0 < 1 - s := by linarith
  constructor
  · intro hn
    have : Geom.dot n (Geom.sub3 r q) < 0 := by
      by_contra hc
      exact absurd (mul_nonneg s0.le (not_lt.1 hc)) (not_le.2 hn)
    exact ⟨by linarith, mul_neg_of_pos_of_neg h1s this⟩
  · rintro ⟨h3, -⟩; linarith

/-- Where there is at most one point on an edge. -/
theorem part_ends {P : Type} {d : P} {ps : Mesh P} {base : Nat} {pts : Nat → List Nat} {sort : Nat → Nat → List Nat → List Nat} {edges : List Nat} {c : CutEdges.St P} {st : Boundary.St P}
    {pieces : Nat → List Nat} {reg : List (Nat × Nat)} {h g x : Nat} (G : Given d ps base pts sort edges c st pieces reg) (A : Arrives ps st.m0 base pts sort pieces reg h g x)
    (few : (pts (edgeOf h)).length ≤ 1) : src st.m0 x = src ps h := by
  obtain ⟨q, hq, hp⟩ := G.path A.part.1
  obtain ⟨u, v, huv⟩ := A.part.2.2.2
  have hm : st.m0.target x ∈ pts (edgeOf h) := (G.points _ _).2 ⟨st.m0.target x - base, g, by have := A.point.1; omega, A.point.2⟩
  have h1 : q = [st.m0.target x] := by
    have hl := hq.length_eq
    have hmq := hq.symm.subset hm
    match q, hmq with
    | [y], hy => rw [List.mem_singleton.1 hy]
    | _ :: _ :: _, _ => simp at hl; omega
  have hb := (G.pts_base hm).1
  have ht : ps.target h < base := by
    have he : LiveE ps (edgeOf h) := ((reachable_wf G.ready.psOk).liveH_iff h).1 A.part.1
    obtain ⟨e0, e1, -⟩ := G.ready.ends he
    rcases _root_.Mcut.Trace.half_of (rfl : edgeOf h = edgeOf h) with h' | h'
    · rw [h']; exact e0
    · rw [h']; exact e1
  rw [hp, h1] at huv
  match u, huv with
  | [], huv => simpa using (List.cons.inj huv).1
  | [a], huv => simp at huv; omega
  | a :: b :: u, huv =>
    have := congrArg List.length huv
    simp at this; omega

/-- The sign test after the earlier stages. -/
theorem falls_of (M : MergeOf d sm cs ps) (hs : Preproc.ValidMesh sm.numVertices (polygons sm)) (hc : Preproc.ValidMesh cs.numVertices (polygons cs)) {l : Nat → K}
    (G : Triangles ps sm.numFaces l) {test : Nat → Nat → Outcome (Box.V3 K)} (hT : TestOf ps l test) {bot top : K} {bS bC : Nat → Box.BBox K}
    (B : Boxed bot top bS bC sm.numFaces ps) {cand : List (Nat × List Nat)} (hcand : Whole.CandidatesOf bot top bS bC sm.numFaces ps cand) (hno : ¬ Violated test cand)
    {t : Tables (Box.V3 K)} (T : Recorded ps sm.numFaces ps.numVertices (hits test cand) t)
    (keys : List (Nat × Nat)) (hkeys : ∀ k, k ∈ keys ↔ t.cut k ≠ []) (csort : List Nat → List Nat) (inside : Nat → Nat → Nat → Bool)
    (hst : cutEdges ps ps.numVertices t.reg csort inside t.cut keys (addPoints (copyVertices d ps).1 t.pts) = some c)
    {sort : Nat → Nat → List Nat → List Nat} {edges : List Nat} {st : Boundary.St (Box.V3 K)} {pieces : Nat → List Nat}
    (Gv : Given d ps ps.numVertices t.edges sort edges c st pieces t.reg)
    (few : ∀ f, LiveF ps f → c.faceEdges f ≠ [] → ∀ h ∈ ps.fh f, (t.edges (edgeOf h)).length ≤ 1)
    {normal : Nat → Option (Geom.V3 K)} (hn : ∀ r ∈ t.reg, normal r.2 = some (Geom.planeCoefficients (corners ps r.2)).1) {h g x : Nat}
    (A : Arrives ps st.m0 ps.numVertices t.edges sort pieces t.reg h g x) :
    ∃ b, fallsOf normal (fun v => pt (st.m0.pos v)) g (src st.m0 x) (st.m0.target x) = some b ∧ (b = true ↔ PassesDown ps h g) := by
  obtain ⟨hnd, hx, h2, -⟩ := C69_pairs M hs hc G hT B hcand hno T
  obtain ⟨st', e', CG⟩ := C66_edges M hs hc _ t T hx (fun k hk => (h2 k hk).1) keys hkeys csort inside
  rw [hst] at e'
  obtain rfl : c = st' := Option.some.inj e'
  obtain ⟨-, hold, -⟩ := addPoints_bare t.pts _ _ (copyVertices_bare M.intact)
  have hcopy := (copyVertices_spec M.intact).2.2.2.1
  have hvert : ∀ v, v < ps.numVertices → c.m0.pos v = ps.pos v := by
    intro v hv
    rw [CG.mesh.pos, hold v hv, hcopy v hv]
  have Kn := known_of M hs hc T hx
  have hreg := List.mem_of_getElem? A.point.2
  have S := Kn.sided _ hreg
  have he : LiveE ps (edgeOf h) := ((reachable_wf Gv.ready.psOk).liveH_iff h).1 A.part.1
  -- the edge has one point
  have hone : (t.edges (edgeOf h)).length ≤ 1 := by
    obtain ⟨f, hf⟩ := S.used
    have hm : st.m0.target x ∈ t.edges (edgeOf h) := (Gv.points _ _).2 ⟨st.m0.target x - ps.numVertices, g, by have := A.point.1; omega, A.point.2⟩
    have hne := Gv.ready.entries _ f he (List.ne_nil_of_mem hm) hf
    have W := reachable_wf Gv.ready.psOk
    have key : ∀ k, k < 2 → ps.face (halfedgeOf (edgeOf h) k) = some f → (t.edges (edgeOf h)).length ≤ 1 := by
      intro k hk hfk
      have hee : edgeOf (halfedgeOf (edgeOf h) k) = edgeOf h := by unfold halfedgeOf edgeOf; omega
      rcases W.h_face _ f (live_half Gv.ready.psOk he k hk) hfk with ⟨-, h1⟩ | ⟨-, hlf, h1⟩
      · cases h1
      · have := few f hlf hne _ h1
        rwa [hee] at this
    rcases hf with hf | hf
    · exact key 0 (by omega) hf
    · exact key 1 (by omega) hf
  have hsrc := part_ends Gv A hone
  obtain ⟨a, b, c', s, k1, k2, k3, k4⟩ := point_place M hs hc G hT B hcand hno T keys hkeys csort inside hst A.point.2
  rw [show ps.numVertices + (st.m0.target x - ps.numVertices) = st.m0.target x by have := A.point.1; omega] at k3 k4
  have hpl : Geom.OnPlaneOf a b c' (pt (c.m0.pos (st.m0.target x))) := Geom.inTriangle_plane ((Geom.inTriangle_iff k2).2 (.inl k3))
  have hpos := Gv.divided.same.2.2.1
  obtain ⟨e0, e1, -⟩ := Gv.ready.ends he
  have hbet : ∃ s, Between (pt (ps.pos (src ps h))) (pt (ps.pos (ps.target h))) (pt (c.m0.pos (st.m0.target x))) s := by
    obtain ⟨s0, s1, x1, y1, z1⟩ := k4
    obtain ⟨o1, -⟩ := src_of Gv.ready.psOk A.part.1
    rcases _root_.Mcut.Trace.half_of (rfl : edgeOf h = edgeOf h) with h' | h'
    · have ho : opposite h = halfedgeOf (edgeOf h) 1 := by unfold opposite; unfold halfedgeOf at *; rw [if_pos (by omega)]; omega
      refine ⟨1 - s, by linarith, by linarith, ?_⟩
      rw [o1, ho]
      have h3 : ps.target h = ps.edgeVertex (edgeOf h) 0 := by conv_lhs => rw [h']
                                                               rfl
      rw [h3]
      have h4 : ps.target (halfedgeOf (edgeOf h) 1) = ps.edgeVertex (edgeOf h) 1 := rfl
      rw [h4, x1, y1, z1]
      exact ⟨by ring, by ring, by ring⟩
    · have ho : opposite h = halfedgeOf (edgeOf h) 0 := by unfold opposite; unfold halfedgeOf at *; rw [if_neg (by omega)]; omega
      refine ⟨s, s0, s1, ?_⟩
      rw [o1, ho]
      have h3 : ps.target h = ps.edgeVertex (edgeOf h) 1 := by conv_lhs => rw [h']
                                                               rfl
      rw [h3]
      have h4 : ps.target (halfedgeOf (edgeOf h) 0) = ps.edgeVertex (edgeOf h) 0 := rfl
      rw [h4]
      exact ⟨x1, y1, z1⟩
  obtain ⟨s', hb⟩ := hbet
  have hsl : src ps h < ps.numVertices := by
    obtain ⟨o1, -⟩ := src_of Gv.ready.psOk A.part.1
    rw [o1]
    rcases _root_.Mcut.Trace.half_of (rfl : edgeOf h = edgeOf h) with h' | h'
    · have ho : opposite h = halfedgeOf (edgeOf h) 1 := by unfold opposite; unfold halfedgeOf at *; rw [if_pos (by omega)]; omega
      rw [ho]; exact e1
    · have ho : opposite h = halfedgeOf (edgeOf h) 0 := by unfold opposite; unfold halfedgeOf at *; rw [if_neg (by omega)]; omega
      rw [ho]; exact e0
  have hfi := falls_iff k2 hpl hb
  have hng := hn _ hreg
  simp only at hng
  rw [k1, Geom.planeCoefficients_tri] at hng
  refine ⟨decide (Geom.dot (Geom.triNormal a b c') (Geom.sub3 (pt (st.m0.pos (st.m0.target x))) (pt (st.m0.pos (src st.m0 x)))) < 0), ?_, ?_⟩
  · unfold fallsOf; rw [hng]; rfl
  · rw [decide_eq_true_eq, hpos, hsrc, hvert _ hsl, hfi]
    constructor
    · rintro ⟨h3, h4⟩; exact ⟨a, b, c', k1, h3, h4⟩
    · rintro ⟨a', b', c'', k1', h3, h4⟩
      rw [k1] at k1'
      simp only [List.cons.injEq, and_true] at k1'
      obtain ⟨rfl, rfl, rfl⟩ := k1'
      exact ⟨h3, h4⟩

end geometry

end Mcut.Trace
