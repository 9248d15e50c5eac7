import Verif.Lemmas.C70All
import Verif.Props.C68
import Verif.Props.C69
import Mathlib.Tactic.Linarith
import Mathlib.Tactic.Ring
import Mathlib.Tactic.LinearCombination

/-!
# C70: the boundaries of the faces are divided at the intersection points
-/
namespace Mcut.Boundary
open Mcut.Hmesh Mcut.Registry Mcut.CutEdges Mcut.Extract
variable {P : Type} {d : P} {ps : Mesh P} {base : Nat} {pts : Nat → List Nat} {sort : Nat → Nat → List Nat → List Nat} {c : CutEdges.St P}

theorem done_perm {edges order l : List Nat} (hl : AllEdges ps l) (hp : edges.Perm l) (ho : ManyPoints ps pts order) : (order ++ few pts edges).Perm l ∧ (order ++ few pts edges).Nodup := by
  have hnd : (order ++ few pts edges).Nodup := by
    rw [List.nodup_append]
    refine ⟨ho.1, (hp.nodup_iff.2 hl.1).filter _, ?_⟩
    intro a ha b hb hab
    subst hab
    unfold few at hb
    rw [List.mem_filter] at hb
    have := ((ho.2 a).1 ha).2
    have h2 := hb.2
    simp at h2
    omega
  refine ⟨?_, hnd⟩
  rw [List.perm_ext_iff_of_nodup hnd hl.1]
  intro e
  rw [List.mem_append, ho.2, hl.2]
  unfold few
  rw [List.mem_filter, hp.mem_iff, hl.2]
  simp only [decide_eq_true_eq]
  constructor
  · rintro (h | h)
    · exact h.1
    · exact h.1
  · intro h
    by_cases h1 : 1 < (pts e).length
    · exact .inl ⟨h, h1⟩
    · exact .inr ⟨h, by omega⟩

/-- **C70 (without thread pool).** Whatever the order of the hash map of the edges with several points, the stage divides every edge of "ps" at its points: the new edges lead
from one end to the other through the sorted points, each new edge is a piece of exactly one edge, and the tables for faces, points and edges are as they should be. -/
theorem C70_sequential (R : Ready d ps base pts c) (A : Arranges ps pts sort) (order edges : List Nat) (ho : ManyPoints ps pts order) (hl : AllEdges ps edges) :
    ∃ pieces, Divided d ps base pts sort edges c (sequential ps base pts edges (part1 ps pts sort order (start c))) pieces := by
  obtain ⟨hp, hnd⟩ := done_perm hl (List.Perm.refl _) ho
  obtain ⟨p1, U1⟩ := part1_upto R A order [] _ _ (upto_start R) (by rw [List.nil_append]; exact ho.1) (fun e he => (ho.2 e).1 he)
  rw [List.nil_append] at U1
  obtain ⟨p2, U2⟩ := sequential_upto R edges _ _ _ U1 hnd (fun e he => (hl.2 e).1 he)
  exact ⟨p2, divided_of R hp hl.1 hl.2 U2⟩

/-- **C70 (with thread pool).** The same with the thread pool, for every division of the edges into blocks and whatever the other threads see of the merges that go on while
they look up the entries of the faces. -/
theorem C70_parallel (R : Ready d ps base pts c) (A : Arranges ps pts sort) (order edges : List Nat) (ho : ManyPoints ps pts order) (hl : AllEdges ps edges)
    (blocks : List (List Nat)) (hb : blocks.flatten.Perm edges) (seen : Nat → Nat → Nat) :
    ∃ pieces, Divided d ps base pts sort edges c (parallel ps base pts seen blocks (part1 ps pts sort order (start c))) pieces := by
  obtain ⟨hp, hnd⟩ := done_perm hl hb ho
  obtain ⟨p1, U1⟩ := part1_upto R A order [] _ _ (upto_start R) (by rw [List.nil_append]; exact ho.1) (fun e he => (ho.2 e).1 he)
  rw [List.nil_append] at U1
  obtain ⟨p2, U2⟩ := mergeAll_upto R seen blocks _ _ [] _ U1 (by simp) hnd (fun e he => (hl.2 e).1 (hb.mem_iff.1 he))
  exact ⟨p2, divided_of R hp hl.1 hl.2 U2⟩

/-- **C70 (where it starts).** The cut edges stage (C66) leaves what this stage needs. -/
theorem C70_ready {sm cs : Mesh P} (M : MergeOf d sm cs ps) (hs : Preproc.ValidMesh sm.numVertices (polygons sm)) (hc : Preproc.ValidMesh cs.numVertices (polygons cs))
    (R : List (Nat × Nat × P)) (t : Tables P) (T : Recorded ps sm.numFaces ps.numVertices R t) (hx : CrossTested ps sm.numFaces t.reg)
    (h2 : ∀ k, t.cut k ≠ [] → (t.cut k).length = 2) (keys : List (Nat × Nat)) (hkeys : ∀ k, k ∈ keys ↔ t.cut k ≠ []) (csort : List Nat → List Nat)
    (inside : Nat → Nat → Nat → Bool) (st : CutEdges.St P)
    (hst : cutEdges ps ps.numVertices t.reg csort inside t.cut keys (addPoints (copyVertices d ps).1 t.pts) = some st) : Ready d ps ps.numVertices t.edges st := by
  have K := known_of M hs hc T hx
  have hlen : t.pts.length = t.reg.length := by rw [T.pts, T.reg]; simp
  obtain ⟨B, -, -⟩ := addPoints_bare t.pts _ _ (copyVertices_bare M.intact)
  obtain ⟨st', e', G⟩ := C66_edges M hs hc R t T hx h2 keys hkeys csort inside
  rw [hst] at e'
  obtain rfl : st = st' := Option.some.inj e'
  generalize addPoints (copyVertices d ps).1 t.pts = m at *
  have W := reachable_wf B.reach
  have hno : ∀ h, ¬ LiveH m h := by
    intro h hl
    have := ((W.liveH_iff h).1 hl).1
    rw [B.nE] at this; omega
  have p0 : Prog d m t.cut [] ⟨m, [], fun _ => [], fun _ => []⟩ := by
    refine ⟨B.reach, B.vRem, rfl, rfl, B.nE, B.eRem, B.nF, B.fRem, rfl, by simp, by simp, by simp, by simp, by simp, ?_⟩
    funext v
    symm
    rw [List.eq_nil_iff_forall_not_mem]
    exact fun h hh => hno h ((W.vh_mem v h).1 hh).1
  obtain ⟨st2, e2, p⟩ := foldlM_two K h2 (by rw [B.nV, hlen]) csort inside keys [] _ p0 (fun k hk => (hkeys k).1 hk)
  obtain rfl : st = st2 := Option.some.inj (hst.symm.trans e2)
  have W' := reachable_wf p.reach
  have hb : ps.numVertices = ps.nV := M.intact.numV
  have hend : ∀ h, LiveH st.m0 h → ps.numVertices ≤ st.m0.target h := by
    intro h hl
    have hlt := (p.liveE (h / 2)).1 ((W'.liveH_iff h).1 hl)
    obtain ⟨k, v, w, hk, hj⟩ := p.only _ hlt
    obtain ⟨-, -, hv, -⟩ := K.entry (k := k) (v := v) (by rw [hk]; simp)
    obtain ⟨-, -, hw, -⟩ := K.entry (k := k) (v := w) (by rw [hk]; simp)
    have hcase : h = h / 2 * 2 + 0 ∨ h = h / 2 * 2 + 1 := by omega
    unfold Joins Mesh.edgeVertex at hj
    rcases hcase with h0 | h0 <;> rw [h0] <;> rcases hj with ⟨a, b⟩ | ⟨a, b⟩ <;> omega
  refine ⟨M.intact.reach, p.reach, p.vRem, p.eRem, by simp [Mesh.numFaces, p.fRem, p.nF], fun v hv => by rw [hb]; exact hv.1, ?_, ?_, ?_, hend, ?_⟩
  · rw [p.nV, B.nV]; omega
  · intro e
    obtain ⟨o, hm⟩ := T.edges e
    refine ⟨o.imp (fun h => by omega), fun v hv => ?_⟩
    obtain ⟨i, e1, f, rfl, hi, -⟩ := (hm v).1 hv
    have := (List.getElem?_eq_some_iff.1 hi).1
    rw [p.nV, B.nV, hlen]; omega
  · intro v
    rw [p.incoming]
    exact ⟨W'.vh_nd v, fun h => W'.vh_mem v h⟩
  · intro e f he hne hf
    obtain ⟨v, hv⟩ := List.exists_mem_of_ne_nil _ hne
    obtain ⟨i, e1, g, rfl, hi, rfl⟩ := ((T.edges e).2 v).1 hv
    have S := K.sided _ (List.mem_of_getElem? hi)
    have h3 := S.one f hf
    have h4 := S.face
    have hiv : t.reg[ps.numVertices + i - ps.numVertices]? = some (e1, g) := by rw [Nat.add_sub_cancel_left]; exact hi
    have key : ∃ k, ps.numVertices + i ∈ t.cut k ∧ (f = k.1 ∨ f = k.2) := by
      by_cases hlt : f < sm.numFaces
      · have : sm.numFaces ≤ g := h4.2 (fun h => by have := h3.2 h; omega)
        exact ⟨(f, g), K.of_entry (by omega) hiv hlt this (.inl ⟨hf, rfl⟩), .inl rfl⟩
      · have : ¬ sm.numFaces ≤ g := fun h => h4.1 h (h3.1 (by omega))
        exact ⟨(g, f), K.of_entry (k := (g, f)) (by omega) hiv (by simp only; omega) (by simp only; omega) (.inr ⟨hf, rfl⟩), .inr rfl⟩
    obtain ⟨k, hk, hfk⟩ := key
    have hl := h2 k (List.ne_nil_of_mem hk)
    obtain ⟨v, w, hvw⟩ : ∃ v w, t.cut k = [v, w] := by
      match hcut : t.cut k, hl with
      | [v, w], _ => exact ⟨v, w, rfl⟩
    obtain ⟨ce, h5, h6⟩ := G.every k v w hvw
    exact List.ne_nil_of_mem ((G.faces f ce).2 ⟨h5, k, v, w, hvw, hfk, h6⟩)

section order
variable {K : Type} [Field K] [LinearOrder K] [IsStrictOrderedRing K]

theorem projection_between {o q p : Geom.V3 K} {s : K} (h : Between o q p s) :
    projection o q p = s * ((q.x - o.x) * (q.x - o.x) + (q.y - o.y) * (q.y - o.y) + (q.z - o.z) * (q.z - o.z)) := by
  obtain ⟨-, -, h1, h2, h3⟩ := h
  unfold projection
  rw [h1, h2, h3]; ring

theorem length_pos {o q : Geom.V3 K} (h : o ≠ q) : 0 < (q.x - o.x) * (q.x - o.x) + (q.y - o.y) * (q.y - o.y) + (q.z - o.z) * (q.z - o.z) := by
  have h1 := mul_self_nonneg (q.x - o.x)
  have h2 := mul_self_nonneg (q.y - o.y)
  have h3 := mul_self_nonneg (q.z - o.z)
  by_contra hc
  have e1 : (q.x - o.x) * (q.x - o.x) = 0 := by linarith
  have e2 : (q.y - o.y) * (q.y - o.y) = 0 := by linarith
  have e3 : (q.z - o.z) * (q.z - o.z) = 0 := by linarith
  apply h
  ext
  · linarith [mul_self_eq_zero.1 e1]
  · linarith [mul_self_eq_zero.1 e2]
  · linarith [mul_self_eq_zero.1 e3]

/-- **C70 (the sort).** When the points of an edge lie strictly between its ends, every result of the sort begins with the first end and ends with the second, and between
them are the points, in the order of their distance from the first end — whatever the sort does with equal elements. -/
theorem C70_sort (pos : Nat → Geom.V3 K) (o q : Nat) (l r : List Nat) (hne : pos o ≠ pos q) (s : Nat → K) (hl : ∀ v ∈ l, Between (pos o) (pos q) (pos v) (s v))
    (h : ProjectionSorted pos o q l r) : ∃ m, m.Perm l ∧ r = o :: (m ++ [q]) ∧ m.Pairwise (fun v w => s v ≤ s w) := by
  obtain ⟨hp, hs⟩ := h
  have hD := length_pos hne
  have po : projection (pos o) (pos q) (pos o) = 0 := by unfold projection; ring
  have pq : projection (pos o) (pos q) (pos q) = 1 * ((((pos q).x - (pos o).x) * ((pos q).x - (pos o).x) + ((pos q).y - (pos o).y) * ((pos q).y - (pos o).y) +
      ((pos q).z - (pos o).z) * ((pos q).z - (pos o).z))) := by unfold projection; ring
  have pl : ∀ v ∈ l, _ := fun v hv => projection_between (hl v hv)
  generalize ((pos q).x - (pos o).x) * ((pos q).x - (pos o).x) + ((pos q).y - (pos o).y) * ((pos q).y - (pos o).y) +
      ((pos q).z - (pos o).z) * ((pos q).z - (pos o).z) = D at *
  have hol : ∀ v ∈ q :: l, 0 < projection (pos o) (pos q) (pos v) := by
    intro v hv
    rcases List.mem_cons.1 hv with rfl | hv
    · rw [pq]; linarith
    · rw [pl v hv]; exact mul_pos (hl v hv).1 hD
  match r, hp, hs with
  | [], hp, _ => exact absurd hp.length_eq (by simp)
  | a :: r', hp, hs =>
    obtain rfl : a = o := by
      by_contra hao
      have ho : o ∈ r' := by
        have : o ∈ a :: r' := hp.symm.subset (by simp)
        rcases List.mem_cons.1 this with h | h
        · exact absurd h.symm hao
        · exact h
      have h1 := (List.pairwise_cons.1 hs).1 o ho
      have ha : a ∈ q :: l := by
        have : a ∈ o :: q :: l := hp.subset (by simp)
        rcases List.mem_cons.1 this with h | h
        · exact absurd h hao
        · exact h
      have := hol a ha
      rw [po] at h1; linarith
    have hp' : r'.Perm (q :: l) := hp.cons_inv
    have hs' := (List.pairwise_cons.1 hs).2
    rcases List.eq_nil_or_concat r' with rfl | ⟨m, b, rfl⟩
    · exact absurd hp'.length_eq (by simp)
    · rw [List.concat_eq_append] at *
      obtain ⟨m1, -, m3⟩ := List.pairwise_append.1 hs'
      obtain rfl : b = q := by
        by_contra hbq
        have hq : q ∈ m := by
          have : q ∈ m ++ [b] := hp'.symm.subset (by simp)
          rcases List.mem_append.1 this with h | h
          · exact h
          · simp at h; exact absurd h.symm hbq
        have h1 := m3 q hq b (by simp)
        have hb : b ∈ l := by
          have : b ∈ q :: l := hp'.subset (by simp)
          rcases List.mem_cons.1 this with h | h
          · exact absurd h hbq
          · exact h
        rw [pq, pl b hb] at h1
        have := mul_lt_mul_of_pos_right (hl b hb).2.1 hD
        linarith
      have hm : m.Perm l := by
        have : (b :: m).Perm (b :: l) := (List.perm_append_comm (l₁ := [b]) (l₂ := m)).trans hp'
        exact this.cons_inv
      refine ⟨m, hm, rfl, ?_⟩
      refine List.Pairwise.imp_of_mem ?_ m1
      intro v w hv hw h
      rw [pl v (hm.subset hv), pl w (hm.subset hw)] at h
      exact le_of_mul_le_mul_right h hD

end order

section triangles
open Mcut.Whole
variable {K : Type} [Field K] [LinearOrder K] [IsStrictOrderedRing K] {d : Box.V3 K} {sm cs ps : Mesh (Box.V3 K)}

/-- **C70 (triangles).** For triangle meshes in general position (the setting of C69) the stage can start, the points of an edge lie strictly between its ends, and whatever
`linear_projection_sort` returns leads from one end to the other through the points in the order of their distance from the first end. -/
theorem C70_triangles (M : MergeOf d sm cs ps) (hs : Preproc.ValidMesh sm.numVertices (polygons sm)) (hc : Preproc.ValidMesh cs.numVertices (polygons cs)) {l : Nat → K}
    (G : Triangles ps sm.numFaces l) {test : Nat → Nat → Outcome (Box.V3 K)} (hT : TestOf ps l test) {bot top : K} {bS bC : Nat → Box.BBox K}
    (B : Boxed bot top bS bC sm.numFaces ps) {cand : List (Nat × List Nat)} (hcand : Whole.CandidatesOf bot top bS bC sm.numFaces ps cand) (hno : ¬ Violated test cand)
    {t : Tables (Box.V3 K)} (T : Recorded ps sm.numFaces ps.numVertices (hits test cand) t)
    (keys : List (Nat × Nat)) (hkeys : ∀ k, k ∈ keys ↔ t.cut k ≠ []) (csort : List Nat → List Nat) (inside : Nat → Nat → Nat → Bool) (st : CutEdges.St (Box.V3 K))
    (hst : cutEdges ps ps.numVertices t.reg csort inside t.cut keys (addPoints (copyVertices d ps).1 t.pts) = some st) (sort : Nat → Nat → List Nat → List Nat)
    (hsort : ∀ e, LiveE ps e → ProjectionSorted (fun v => pt (st.m0.pos v)) (ps.edgeVertex e 0) (ps.edgeVertex e 1) (t.edges e)
      (sort (ps.edgeVertex e 0) (ps.edgeVertex e 1) (t.edges e))) :
    Ready d ps ps.numVertices t.edges st ∧ Arranges ps t.edges sort ∧
    ∀ e, LiveE ps e → ∃ (s : Nat → K) (m : List Nat), (∀ v ∈ t.edges e, Between (pt (ps.pos (ps.edgeVertex e 0))) (pt (ps.pos (ps.edgeVertex e 1))) (pt (st.m0.pos v)) (s v)) ∧
      m.Perm (t.edges e) ∧ along ps t.edges sort e = ps.edgeVertex e 0 :: (m ++ [ps.edgeVertex e 1]) ∧ m.Pairwise (fun v w => s v ≤ s w) := by
  obtain ⟨hnd, hx, h2, -⟩ := C69_pairs M hs hc G hT B hcand hno T
  have R := C70_ready M hs hc _ t T hx (fun k hk => (h2 k hk).1) keys hkeys csort inside st hst
  obtain ⟨st', e', CG⟩ := C66_edges M hs hc _ t T hx (fun k hk => (h2 k hk).1) keys hkeys csort inside
  rw [hst] at e'
  obtain rfl : st = st' := Option.some.inj e'
  obtain ⟨-, hold, hpos⟩ := addPoints_bare t.pts _ _ (copyVertices_bare M.intact)
  have hcopy := (copyVertices_spec M.intact).2.2.2.1
  have hvert : ∀ v, v < ps.numVertices → st.m0.pos v = ps.pos v := by
    intro v hv
    rw [CG.mesh.pos, hold v hv, hcopy v hv]
  have Kn := known_of M hs hc T hx
  -- the points of an edge
  have hbet : ∀ e, LiveE ps e → ∀ v ∈ t.edges e, pt (ps.pos (ps.edgeVertex e 0)) ≠ pt (ps.pos (ps.edgeVertex e 1)) ∧
      ∃ s, Between (pt (ps.pos (ps.edgeVertex e 0))) (pt (ps.pos (ps.edgeVertex e 1))) (pt (st.m0.pos v)) s := by
    intro e he v hv
    obtain ⟨i, e1, g, rfl, hi, rfl⟩ := ((T.edges e).2 v).1 hv
    rw [T.reg, List.getElem?_map] at hi
    cases hR : (hits test cand)[i]? with
    | none => rw [hR] at hi; simp at hi
    | some x =>
      rw [hR] at hi
      simp only [Option.map_some, Option.some.injEq, Prod.mk.injEq] at hi
      obtain ⟨rfl, rfl⟩ := hi
      have hp : st.m0.pos (ps.numVertices + i) = x.2.2 := by
        rw [CG.mesh.pos]
        exact hpos i _ (by rw [T.pts, List.getElem?_map, hR]; rfl)
      obtain ⟨hc1, hc2⟩ := (C63_points test cand x.1 x.2.1 x.2.2).1 (List.mem_of_getElem? hR)
      obtain ⟨⟨f, f1, f2, f3, f4⟩, -⟩ := (hcand.pairs _ _).1 hc1
      obtain ⟨r, r1, r2⟩ := hT x.1 x.2.1 he f3
      obtain ⟨a, b, c, hcn, Tg⟩ := G.testable x.2.1 f3
      rw [hcn] at r1
      rw [hc2] at r2
      obtain ⟨p, rfl, hpp⟩ : ∃ p, r = .point p ∧ x.2.2 = unpt p := by
        cases r with
        | miss => simp [outcome] at r2
        | violation => simp [outcome] at r2
        | point p => exact ⟨p, rfl, by simpa [outcome] using r2⟩
      have hqr : ¬ (Geom.OnPlaneOf a b c (pt (ps.pos (ps.edgeVertex x.1 0))) ∧ Geom.OnPlaneOf a b c (pt (ps.pos (ps.edgeVertex x.1 1)))) := by
        rintro ⟨h1, h3⟩
        have := Geom.C62_coplanar a b c _ Tg.proper Tg.length Tg.regular _ _ h1 h3 _ r1
        by_cases hin : Geom.InTriangle a b c (pt (ps.pos (ps.edgeVertex x.1 0))) ∨ Geom.InTriangle a b c (pt (ps.pos (ps.edgeVertex x.1 1)))
        · have := this.1 hin; simp at this
        · have := this.2 ⟨fun h => hin (.inl h), fun h => hin (.inr h)⟩; simp at this
      obtain ⟨t', ht, hpt, -, -⟩ := Geom.C62_triangle a b c _ Tg.proper Tg.length Tg.regular _ _ hqr _ r1
      obtain rfl := Option.some.inj ht
      obtain ⟨n1, n2, ⟨s, s0, s1, hs⟩, hin⟩ := (hpt p).1 rfl
      have hpl : Geom.OnPlaneOf a b c p := Geom.inTriangle_plane ((Geom.inTriangle_iff Tg.proper).2 (.inl hin))
      have hs0 : s ≠ 0 := by
        rintro rfl
        rw [Geom.lerp3_zero] at hs
        rw [hs] at hpl; exact n1 hpl
      have hs1 : s ≠ 1 := by
        rintro rfl
        rw [Geom.lerp3_one] at hs
        rw [hs] at hpl; exact n2 hpl
      refine ⟨?_, s, lt_of_le_of_ne s0 (Ne.symm hs0), lt_of_le_of_ne s1 hs1, ?_, ?_, ?_⟩
      · intro heq
        rw [← heq] at hs
        have : p = pt (ps.pos (ps.edgeVertex x.1 0)) := by
          rw [hs]; unfold Geom.lerp3; ext <;> simp
        rw [this] at hpl; exact n1 hpl
      all_goals rw [hp, hpp]; simp only [pt, unpt]; rw [hs]; rfl
  have hends : ∀ e, LiveE ps e → st.m0.pos (ps.edgeVertex e 0) = ps.pos (ps.edgeVertex e 0) ∧ st.m0.pos (ps.edgeVertex e 1) = ps.pos (ps.edgeVertex e 1) := by
    intro e he
    obtain ⟨h0, h1, -⟩ := R.ends he
    exact ⟨hvert _ h0, hvert _ h1⟩
  have main : ∀ e, LiveE ps e → t.edges e ≠ [] → ∃ (s : Nat → K) (m : List Nat),
      (∀ v ∈ t.edges e, Between (pt (ps.pos (ps.edgeVertex e 0))) (pt (ps.pos (ps.edgeVertex e 1))) (pt (st.m0.pos v)) (s v)) ∧
      m.Perm (t.edges e) ∧ sort (ps.edgeVertex e 0) (ps.edgeVertex e 1) (t.edges e) = ps.edgeVertex e 0 :: (m ++ [ps.edgeVertex e 1]) ∧ m.Pairwise (fun v w => s v ≤ s w) := by
    intro e he hne
    classical
    obtain ⟨v0, hv0⟩ := List.exists_mem_of_ne_nil _ hne
    let s : Nat → K := fun v => if h : ∃ s, Between (pt (ps.pos (ps.edgeVertex e 0))) (pt (ps.pos (ps.edgeVertex e 1))) (pt (st.m0.pos v)) s then h.choose else 0
    have hsv : ∀ v ∈ t.edges e, Between (pt (ps.pos (ps.edgeVertex e 0))) (pt (ps.pos (ps.edgeVertex e 1))) (pt (st.m0.pos v)) (s v) := by
      intro v hv
      have h := (hbet e he v hv).2
      simp only [s, dif_pos h]
      exact h.choose_spec
    obtain ⟨e0, e1⟩ := hends e he
    obtain ⟨m, m1, m2, m3⟩ := C70_sort (fun v => pt (st.m0.pos v)) _ _ _ _ (by rw [e0, e1]; exact (hbet e he v0 hv0).1) s
      (fun v hv => by rw [e0, e1]; exact hsv v hv) (hsort e he)
    exact ⟨s, m, hsv, m1, m2, m3⟩
  refine ⟨R, ?_, ?_⟩
  · intro e he h1
    obtain ⟨s, m, -, m1, m2, -⟩ := main e he (by intro h; rw [h] at h1; simp at h1)
    exact ⟨m, m1, m2⟩
  · intro e he
    by_cases h1 : 1 < (t.edges e).length
    · obtain ⟨s, m, a, m1, m2, m3⟩ := main e he (by intro h; rw [h] at h1; simp at h1)
      exact ⟨s, m, a, m1, by unfold along; rw [if_pos h1]; exact m2, m3⟩
    · by_cases h0 : t.edges e = []
      · exact ⟨fun _ => 0, [], by rw [h0]; simp, by rw [h0], by unfold along; rw [if_neg h1, h0], List.Pairwise.nil⟩
      · obtain ⟨s, -, a, -⟩ := main e he h0
        refine ⟨s, t.edges e, a, List.Perm.refl _, by unfold along; rw [if_neg h1], ?_⟩
        match hte : t.edges e with
        | [] => exact List.Pairwise.nil
        | [x] => simp
        | _ :: _ :: _ => rw [hte] at h1; simp at h1

end triangles

open Mcut.Floating Mcut.Pairs

/-- The tests: edge 0 of the triangle pierces two faces of the cone, and the edge between these pierces the triangle. -/
def demoTest3 (e f : Nat) : Outcome Unit := if (e, f) = (0, 1) ∨ (e, f) = (0, 2) ∨ (e, f) = (4, 0) then .point () else .miss

def demoCand3 : List (Nat × List Nat) := [(0, [1, 2]), (4, [0])]

def demoTables3 : Tables Unit := (Registry.sequential demoPs2 3 1 7 demoTest3 demoCand3).getD .empty

/-- The hypotheses of `C70_ready`, `C70_sequential` and `C70_parallel` are met: a triangle with an edge that pierces two neighbouring faces of a cone; this edge has two
points. -/
theorem C70_demo : ∃ (sm cs ps : Mesh Unit) (R : List (Nat × Nat × Unit)) (t : Tables Unit), MergeOf () sm cs ps ∧ Preproc.ValidMesh sm.numVertices (polygons sm) ∧
    Preproc.ValidMesh cs.numVertices (polygons cs) ∧ Recorded ps sm.numFaces ps.numVertices R t ∧ CrossTested ps sm.numFaces t.reg ∧
    (∀ k, t.cut k ≠ [] → (t.cut k).length = 2) ∧ t.reg = [(0, 1), (0, 2), (4, 0)] ∧ t.edges 0 = [7, 8] ∧ ManyPoints ps t.edges [0] ∧ AllEdges ps (List.range 9) ∧
    Arranges ps t.edges (fun o q l => o :: (l ++ [q])) := by
  have I : Intact () demoTri := runAll_intact () _ (by decide +kernel) (by decide +kernel)
  have J : Intact () demoCone := runAll_intact () _ (by decide +kernel) (by decide +kernel)
  have hv : Preproc.ValidMesh demoTri.numVertices (polygons demoTri) := by
    rw [show demoTri.numVertices = 3 by decide +kernel, show polygons demoTri = [[1, 2, 0]] by decide +kernel]
    refine ⟨?_, by decide⟩
    intro f hf
    obtain rfl : f = [1, 2, 0] := by simpa using hf
    exact ⟨by decide, by decide, by decide⟩
  have hw : Preproc.ValidMesh demoCone.numVertices (polygons demoCone) := by
    rw [show demoCone.numVertices = 4 by decide +kernel, show polygons demoCone = [[1, 2, 0], [2, 3, 0], [3, 1, 0]] by decide +kernel]
    refine ⟨?_, by decide⟩
    intro f hf
    simp only [List.mem_cons, List.not_mem_nil, or_false] at hf
    rcases hf with rfl | rfl | rfl
    all_goals exact ⟨by decide, by decide, by decide⟩
  obtain ⟨S, hS, M, -⟩ := C60_soup 0 I J hw none (by intro t h; cases h)
  have hps : demoPs2 = S.ps := by unfold demoPs2; rw [hS]; rfl
  rw [← hps] at M
  have nV : demoTri.numVertices = 3 := by decide +kernel
  have nF : demoTri.numFaces = 1 := by decide +kernel
  have nV' : demoPs2.numVertices = 7 := by decide +kernel
  have nF' : demoPs2.numFaces = 4 := by decide +kernel
  have fh0 : demoPs2.fh 0 = [0, 2, 4] := by decide +kernel
  have fh1 : demoPs2.fh 1 = [6, 8, 10] := by decide +kernel
  have cross : ∀ x, x = (0, 1) ∨ x = (0, 2) ∨ x = (4, 0) → ∃ f, f < demoPs2.numFaces ∧ OnFace demoPs2 x.1 f ∧ x.2 < demoPs2.numFaces ∧ OtherSide demoTri.numFaces f x.2 := by
    rw [nF', nF]
    rintro x (rfl | rfl | rfl)
    · exact ⟨0, by omega, ⟨0, by rw [fh0]; simp, rfl⟩, by simp, by unfold OtherSide; simp⟩
    · exact ⟨0, by omega, ⟨0, by rw [fh0]; simp, rfl⟩, by simp, by unfold OtherSide; simp⟩
    · exact ⟨1, by omega, ⟨8, by rw [fh1]; simp, rfl⟩, by simp, by unfold OtherSide; simp⟩
  have sided : ∀ x ∈ demoCand3, ∀ f ∈ x.2, Sided demoPs2 3 1 x.1 f := by
    intro x hx f hf
    have hx1 : (x.1, f) = (0, 1) ∨ (x.1, f) = (0, 2) ∨ (x.1, f) = (4, 0) := by
      have : ∀ x ∈ demoCand3, ∀ f ∈ x.2, (x.1, f) = (0, 1) ∨ (x.1, f) = (0, 2) ∨ (x.1, f) = (4, 0) := by decide +kernel
      exact this x hx f hf
    obtain ⟨g, g1, g2, g3, g4⟩ := cross _ hx1
    have := C63_valid M hv hw g1 g2 g4
    rwa [nV, nF] at this
  have hrun := C63_sequential demoPs2 3 1 7 demoTest3 _ sided
  have hsome : Registry.sequential demoPs2 3 1 7 demoTest3 demoCand3 = some demoTables3 := by
    unfold demoTables3
    cases h : Registry.sequential demoPs2 3 1 7 demoTest3 demoCand3 with
    | none =>
      have : (Registry.sequential demoPs2 3 1 7 demoTest3 demoCand3).isSome = true := by decide +kernel
      rw [h] at this; cases this
    | some t => rfl
  have hreg : demoTables3.reg = [(0, 1), (0, 2), (4, 0)] := by decide +kernel
  have hrec := hrun.2 _ hsome
  have hcut : ∀ c ∈ [1, 2], (demoTables3.cut (0, c)).length = 2 := by decide +kernel
  have hedges : ∀ e, demoTables3.edges e ≠ [] → e = 0 ∨ e = 4 := by
    intro e he
    obtain ⟨v, hv⟩ := List.exists_mem_of_ne_nil _ he
    obtain ⟨i, e1, f, -, hi, rfl⟩ := ((hrec.edges e).2 v).1 hv
    have := List.mem_of_getElem? hi
    rw [hreg] at this
    simp only [List.mem_cons, Prod.mk.injEq, List.not_mem_nil, or_false] at this
    rcases this with ⟨h, -⟩ | ⟨h, -⟩ | ⟨h, -⟩
    · exact .inl h
    · exact .inl h
    · exact .inr h
  have he0 : demoTables3.edges 0 = [7, 8] := by decide +kernel
  have he4 : demoTables3.edges 4 = [9] := by decide +kernel
  have nE : demoPs2.nE = 9 := by decide +kernel
  have eRem : demoPs2.eRem = [] := by decide +kernel
  have live : ∀ e, LiveE demoPs2 e ↔ e < 9 := by
    intro e
    unfold LiveE Live
    rw [nE, eRem]; simp
  refine ⟨demoTri, demoCone, demoPs2, _, demoTables3, M, hv, hw, by rw [nF, nV']; exact hrec, ?_, ?_, hreg, he0, ⟨by simp, ?_⟩, ⟨List.nodup_range, ?_⟩, ?_⟩
  · intro x hx
    rw [hreg] at hx
    simp only [List.mem_cons, List.not_mem_nil, or_false] at hx
    exact cross x hx
  · rintro ⟨s, c⟩ hk
    obtain ⟨v, hv'⟩ := List.exists_mem_of_ne_nil _ hk
    obtain ⟨i, e, f, -, hi, h1, h2, h3⟩ := ((hrec.cut s c).2 v).1 hv'
    have hm := List.mem_of_getElem? hi
    rw [hreg] at hm
    simp only [List.mem_cons, Prod.mk.injEq, List.not_mem_nil, or_false] at hm
    have a0 : ∀ g, OnEdge demoPs2 0 g → g = 0 := by
      intro g hg
      have a : demoPs2.face (halfedgeOf 0 0) = some 0 := by decide +kernel
      have b : demoPs2.face (halfedgeOf 0 1) = none := by decide +kernel
      unfold OnEdge at hg; rw [a, b] at hg; simpa [eq_comm] using hg
    have a4 : ∀ g, OnEdge demoPs2 4 g → g = 1 ∨ g = 2 := by
      intro g hg
      have a : demoPs2.face (halfedgeOf 4 0) = some 1 := by decide +kernel
      have b : demoPs2.face (halfedgeOf 4 1) = some 2 := by decide +kernel
      unfold OnEdge at hg; rw [a, b] at hg; simpa [eq_comm] using hg
    have hsc : s = 0 ∧ (c = 1 ∨ c = 2) := by
      refine ⟨by omega, ?_⟩
      rcases hm with ⟨rfl, rfl⟩ | ⟨rfl, rfl⟩ | ⟨rfl, rfl⟩ <;> rcases h3 with ⟨h3, h4⟩ | ⟨h3, h4⟩
      · exact .inl h4.symm
      · have := a0 _ h3; omega
      · exact .inr h4.symm
      · have := a0 _ h3; omega
      · have := a4 _ h3; omega
      · exact a4 _ h3
    rw [hsc.1]
    rcases hsc.2 with rfl | rfl
    · exact hcut 1 (by simp)
    · exact hcut 2 (by simp)
  · intro e
    rw [List.mem_singleton, live]
    constructor
    · rintro rfl; rw [he0]; simp
    · rintro ⟨-, h⟩
      rcases hedges e (by intro h'; rw [h'] at h; simp at h) with rfl | rfl
      · rfl
      · rw [he4] at h; simp at h
  · intro e; rw [List.mem_range, live]
  · intro e _ _; exact ⟨_, List.Perm.refl _, rfl⟩

-- the stage computed, without and with the thread pool: vertices 7 and 8 on edge 0, 9 on edge 4
example : ((cutEdges demoPs2 7 demoTables3.reg id (fun _ _ _ => true) demoTables3.cut [(0, 1), (0, 2)] (addPoints (copyVertices () demoPs2).1 demoTables3.pts)).map
    (fun st =>
      let r := sequential demoPs2 7 demoTables3.edges (List.range 9) (part1 demoPs2 demoTables3.edges (fun o q l => o :: (l ++ [q])) [0] (start st))
      [[r.m0.nE], r.chains 0, r.faceEdges 0, r.faceEdges 3, r.incoming 7, r.incoming 8, r.incoming 9])) =
    some [[14], [2, 3, 4], [0, 1, 2, 3, 4, 5, 6], [], [1, 4, 7], [3, 6, 9], [0, 2, 16, 19]] := by decide +kernel
example : ((cutEdges demoPs2 7 demoTables3.reg id (fun _ _ _ => true) demoTables3.cut [(0, 1), (0, 2)] (addPoints (copyVertices () demoPs2).1 demoTables3.pts)).map
    (fun st =>
      let r := parallel demoPs2 7 demoTables3.edges (fun _ _ => 0) [[0, 1, 2], [3, 4], [5, 6, 7, 8]]
        (part1 demoPs2 demoTables3.edges (fun o q l => o :: (l ++ [q])) [0] (start st))
      [[r.m0.nE], r.chains 0, r.faceEdges 0, r.faceEdges 3, r.incoming 7, r.incoming 8, r.incoming 9])) =
    some [[14], [2, 3, 4], [0, 1, 2, 3, 4, 5, 6], [], [1, 4, 7], [3, 6, 9], [0, 2, 16, 19]] := by decide +kernel

end Mcut.Boundary
