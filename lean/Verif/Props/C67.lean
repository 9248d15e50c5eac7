import Verif.Lemmas.C67
import Verif.Props.C66

/-!
# C67: the cut paths
-/
namespace Mcut.CutPaths
open Mcut.Hmesh Mcut.Registry Mcut.Extract Mcut.Pairs Mcut.CutEdges
variable {P : Type} {d : P} {sm cs ps : Mesh P}

/-- **C67 (sequences).** For edges that form separate paths and loops, and whatever the order in which the hash map of the points is passed through: the search ends without a
failed assertion, and its sequences are exactly these paths and loops. Every point is mapped to the number of its sequence. -/
theorem C67_sequences {ends : Nat → Nat × Nat} {edges : List Nat} (G : Curves ends edges) (hne : edges ≠ []) (order : List Nat) (hnd : order.Nodup)
    (horder : ∀ v, v ∈ order ↔ ∃ e ∈ edges, (ends e).1 = v ∨ (ends e).2 = v) :
    ∃ st, paths ends order edges = some st ∧ Sequences ends edges st.seqs ∧
      ∀ v i, (v, i) ∈ st.vs ↔ ∃ seq, st.seqs[i]? = some seq ∧ ∃ e ∈ seq, (ends e).1 = v ∨ (ends e).2 = v := by
  have hb : bins ends edges = star ends edges := funext (bins_eq G)
  have ho : ∀ v, v ∈ order ↔ star ends edges v ≠ [] := by
    intro v
    rw [horder]
    constructor
    · rintro ⟨e, he, hi⟩ h
      have := mem_star.2 ⟨he, hi⟩; rw [h] at this; simp at this
    · intro h
      obtain ⟨e, he⟩ := List.exists_mem_of_ne_nil _ h
      exact ⟨e, mem_star.1 he⟩
  obtain ⟨st, h1, I, h2⟩ := build_spec G hnd ho (edges.length + 1) ⟨[], [], []⟩ (inv_empty _ _) (by simpa using List.length_pos_iff.2 hne) (by simp)
  refine ⟨st, ?_, ⟨?_, I.shape, I.whole⟩, I.index⟩
  · unfold paths; rw [hb]; exact h1
  · have hsub : (st.es.map Prod.fst).Subperm edges := List.subperm_of_subset I.done.eNd I.done.eSub
    have := List.Subperm.perm_of_length_le hsub (by simp [h2])
    exact I.es.symm.trans this

/-- The number of edges with an end in a point is the number of halfedges that end in it. -/
theorem degree_incoming {m : Mesh P} {cut : Nat × Nat → List Nat} {st : CutEdges.St P} (G : CutGraph m cut st) (v : Nat) :
    degree (endsOf st.m0) st.cutEdges v = (st.incoming v).length := by
  rw [← star_length]
  have htgt : ∀ h, st.m0.target h = v → Inc (endsOf st.m0) (edgeOf h) v := by
    intro h ht
    have : h = edgeOf h * 2 + 0 ∨ h = edgeOf h * 2 + 1 := by unfold edgeOf; omega
    unfold Inc endsOf Mesh.edgeVertex
    rcases this with e | e
    · left; rw [← e]; exact ht
    · right; rw [← e]; exact ht
  have hp : (star (endsOf st.m0) st.cutEdges v).Perm ((st.incoming v).map edgeOf) := by
    rw [List.perm_ext_iff_of_nodup]
    · intro e
      rw [mem_star, List.mem_map]
      constructor
      · rintro ⟨he, hi | hi⟩
        · exact ⟨e * 2 + 0, (G.incoming v _).2 ⟨by rw [show edgeOf (e * 2 + 0) = e by unfold edgeOf; omega]; exact he, hi⟩, by unfold edgeOf; omega⟩
        · exact ⟨e * 2 + 1, (G.incoming v _).2 ⟨by rw [show edgeOf (e * 2 + 1) = e by unfold edgeOf; omega]; exact he, hi⟩, by unfold edgeOf; omega⟩
      · rintro ⟨h, hh, rfl⟩
        obtain ⟨h1, h2⟩ := (G.incoming v h).1 hh
        exact ⟨h1, htgt h h2⟩
    · apply List.Nodup.filter
      rw [G.numbers]; exact List.nodup_range
    · rw [List.nodup_map_iff_inj_on (G.inNodup v)]
      intro x hx y hy hxy
      obtain ⟨x1, x2⟩ := (G.incoming v x).1 hx
      obtain ⟨y1, y2⟩ := (G.incoming v y).1 hy
      by_contra hne
      apply G.noLoop _ x1
      unfold Mesh.edgeVertex
      have hx' : x = edgeOf x * 2 + 0 ∨ x = edgeOf x * 2 + 1 := by unfold edgeOf; omega
      have hy' : y = edgeOf x * 2 + 0 ∨ y = edgeOf x * 2 + 1 := by rw [hxy]; unfold edgeOf; omega
      rcases hx' with a | a <;> rcases hy' with b | b
      · exact absurd (a.trans b.symm) hne
      · rw [← a, ← b, x2, y2]
      · rw [← a, ← b, x2, y2]
      · exact absurd (a.trans b.symm) hne
  rw [hp.length_eq, List.length_map]

/-- **C67 (the cut graph).** The edges that C66 adds form separate paths and loops, and a point has a single edge exactly if it lies on a border edge of its mesh. -/
theorem C67_curves (M : MergeOf d sm cs ps) (hs : Preproc.ValidMesh sm.numVertices (polygons sm)) (hc : Preproc.ValidMesh cs.numVertices (polygons cs))
    (R : List (Nat × Nat × P)) (t : Tables P) (T : Recorded ps sm.numFaces ps.numVertices R t) (hx : CrossTested ps sm.numFaces t.reg)
    (h2 : ∀ k, t.cut k ≠ [] → (t.cut k).length = 2) (hnd : t.reg.Nodup) (h1 : OneCommonEdge ps) (m : Mesh P) (st : CutEdges.St P) (G : CutGraph m t.cut st) :
    Curves (endsOf st.m0) st.cutEdges ∧ Pointed ps sm.numVertices sm.numFaces ps.numVertices t.reg (endsOf st.m0) st.cutEdges := by
  have K := known_of M hs hc T hx
  have hp : ∀ v, (∃ h, h ∈ st.incoming v) → ∃ e f, ps.numVertices ≤ v ∧ t.reg[v - ps.numVertices]? = some (e, f) := by
    rintro v ⟨x, hx'⟩
    obtain ⟨hm, ht⟩ := (G.incoming v x).1 hx'
    obtain ⟨k, a, b, hk, hj⟩ := G.only _ hm
    have hin : v ∈ t.cut k := by
      rw [hk, List.mem_cons, List.mem_singleton]
      have : x = edgeOf x * 2 + 0 ∨ x = edgeOf x * 2 + 1 := by unfold edgeOf; omega
      rcases this with a | a <;> rw [a] at ht <;> rcases hj with ⟨j1, j2⟩ | ⟨j1, j2⟩
      · exact .inl (ht.symm.trans j1)
      · exact .inr (ht.symm.trans j1)
      · exact .inr (ht.symm.trans j2)
      · exact .inl (ht.symm.trans j2)
    obtain ⟨e, f, hb, hr, -⟩ := K.entry hin
    exact ⟨e, f, hb, hr⟩
  have hdeg : ∀ v e f, ps.numVertices ≤ v → t.reg[v - ps.numVertices]? = some (e, f) →
      (BorderEdge ps e → degree (endsOf st.m0) st.cutEdges v = 1) ∧ (¬ BorderEdge ps e → degree (endsOf st.m0) st.cutEdges v = 2) := by
    intro v e f hb hr
    rw [degree_incoming G]
    have := C66_degree M hs hc R t T hx h2 hnd h1 m st G _ e f hr
    rwa [show ps.numVertices + (v - ps.numVertices) = v by omega] at this
  constructor
  · refine ⟨by rw [G.numbers]; exact List.nodup_range, fun e he => G.noLoop e he, fun v => ?_⟩
    by_cases hv : ∃ h, h ∈ st.incoming v
    · obtain ⟨e, f, hb, hr⟩ := hp v hv
      by_cases hbe : BorderEdge ps e
      · rw [(hdeg v e f hb hr).1 hbe]; omega
      · rw [(hdeg v e f hb hr).2 hbe]
    · rw [degree_incoming G]
      push Not at hv
      rw [List.eq_nil_iff_forall_not_mem.2 hv]
      simp
  · intro e he v hi
    have : ∃ h, h ∈ st.incoming v := by
      rcases hi with hi | hi
      · exact ⟨e * 2 + 0, (G.incoming v _).2 ⟨by rw [show edgeOf (e * 2 + 0) = e by unfold edgeOf; omega]; exact he, hi⟩⟩
      · exact ⟨e * 2 + 1, (G.incoming v _).2 ⟨by rw [show edgeOf (e * 2 + 1) = e by unfold edgeOf; omega]; exact he, hi⟩⟩
    obtain ⟨x, f, hb, hr⟩ := hp v this
    exact ⟨x, f, hb, hr, K.sided _ (List.mem_of_getElem? hr), hdeg v x f hb hr⟩

/-- **C67.** In the situation of C66 with at least one cut edge, for every order of the hash map: the kernel finds exactly the paths and loops of the cut graph; a path ends in
points on border edges, makes a hole if both are border edges of the cut mesh and severs the source mesh if both are border edges of the source mesh; a loop passes through no
border edge, makes a hole and severs. -/
theorem C67_cut_paths (M : MergeOf d sm cs ps) (hs : Preproc.ValidMesh sm.numVertices (polygons sm)) (hc : Preproc.ValidMesh cs.numVertices (polygons cs))
    (R : List (Nat × Nat × P)) (t : Tables P) (T : Recorded ps sm.numFaces ps.numVertices R t) (hx : CrossTested ps sm.numFaces t.reg)
    (h2 : ∀ k, t.cut k ≠ [] → (t.cut k).length = 2) (hnd : t.reg.Nodup) (h1 : OneCommonEdge ps) (m : Mesh P) (st : CutEdges.St P) (G : CutGraph m t.cut st)
    (hne : st.cutEdges ≠ []) (order : List Nat) (hod : order.Nodup)
    (horder : ∀ v, v ∈ order ↔ ∃ e ∈ st.cutEdges, (endsOf st.m0 e).1 = v ∨ (endsOf st.m0 e).2 = v) :
    ∃ r, paths (endsOf st.m0) order st.cutEdges = some r ∧ Sequences (endsOf st.m0) st.cutEdges r.seqs ∧
      ∀ seq ∈ r.seqs, ∃ k, classify ps sm.numFaces ps.numVertices t.reg (endsOf st.m0) seq = some k ∧
        (∀ v w, PathBetween (endsOf st.m0) st.cutEdges seq v w → PathKind ps sm.numFaces ps.numVertices t.reg v w k) ∧
        (IsLoop (endsOf st.m0) st.cutEdges seq → LoopKind ps ps.numVertices t.reg (endsOf st.m0) seq k) := by
  obtain ⟨C, B⟩ := C67_curves M hs hc R t T hx h2 hnd h1 m st G
  obtain ⟨r, r1, r2, -⟩ := C67_sequences C hne order hod horder
  refine ⟨r, r1, r2, fun seq hseq => ?_⟩
  have hsub : ∀ e ∈ seq, e ∈ st.cutEdges := fun e he => r2.partition.mem_iff.1 (List.mem_flatten.2 ⟨seq, hseq, he⟩)
  have hsnd : seq.Nodup := (List.nodup_flatten.1 (r2.partition.nodup_iff.2 C.nodup)).1 seq hseq
  obtain ⟨k, hk⟩ : ∃ k, classify ps sm.numFaces ps.numVertices t.reg (endsOf st.m0) seq = some k := by
    rcases r2.shape seq hseq with ⟨v, w, h⟩ | h
    · obtain ⟨k, hk, -⟩ := classify_path B hsub hsnd h; exact ⟨k, hk⟩
    · obtain ⟨k, hk, -⟩ := classify_loop B hsub h; exact ⟨k, hk⟩
  refine ⟨k, hk, fun v w h => ?_, fun h => ?_⟩
  · obtain ⟨k', hk', hp⟩ := classify_path B hsub hsnd h
    rw [hk] at hk'
    rw [Option.some.inj hk']; exact hp
  · obtain ⟨k', hk', hp⟩ := classify_loop B hsub h
    rw [hk] at hk'
    rw [Option.some.inj hk']; exact hp

/-- A path and a sequence is not a loop: `linear` tells them apart. -/
theorem C67_linear_iff {seq edges : List Nat} {ends : Nat → Nat × Nat} {k : Kind} {smF base : Nat} {reg : List (Nat × Nat)} (hs : IsPath ends edges seq ∨ IsLoop ends edges seq)
    (hp : ∀ v w, PathBetween ends edges seq v w → PathKind ps smF base reg v w k) (hl : IsLoop ends edges seq → LoopKind ps base reg ends seq k) :
    k.linear = true ↔ IsPath ends edges seq := by
  constructor
  · intro h
    rcases hs with hs | hs
    · exact hs
    · rw [(hl hs).1] at h; simp at h
  · rintro ⟨v, w, h⟩
    obtain ⟨x, y, -, -, -, -, h5, -⟩ := hp v w h
    exact h5

/-- The hypotheses of `C67_sequences` are met: a path with three edges and a loop with three edges, given in a jumbled order. -/
def demoEnds : Nat → Nat × Nat
  | 0 => (10, 11) | 1 => (21, 20) | 2 => (12, 11) | 3 => (20, 22) | 4 => (12, 13) | _ => (22, 21)

theorem C67_demo : Curves demoEnds [0, 1, 2, 3, 4, 5] ∧ ([11, 20, 13, 21, 10, 12, 22] : List Nat).Nodup ∧
    ∀ v, v ∈ [11, 20, 13, 21, 10, 12, 22] ↔ ∃ e ∈ [0, 1, 2, 3, 4, 5], (demoEnds e).1 = v ∨ (demoEnds e).2 = v := by
  refine ⟨⟨by decide, by decide, fun v => ?_⟩, by decide, fun v => ?_⟩
  · have : v = 10 ∨ v = 11 ∨ v = 12 ∨ v = 13 ∨ v = 20 ∨ v = 21 ∨ v = 22 ∨ (v ≠ 10 ∧ v ≠ 11 ∧ v ≠ 12 ∧ v ≠ 13 ∧ v ≠ 20 ∧ v ≠ 21 ∧ v ≠ 22) := by omega
    rcases this with rfl | rfl | rfl | rfl | rfl | rfl | rfl | ⟨h1, h2, h3, h4, h5, h6, h7⟩
    all_goals first | decide | skip
    simp [degree, demoEnds, h1.symm, h2.symm, h3.symm, h4.symm, h5.symm, h6.symm, h7.symm]
  · simp only [List.mem_cons, List.not_mem_nil, or_false, exists_eq_or_imp, exists_eq_left, demoEnds]
    omega

-- the search computed: the path is found first, from its end in the order of the map
example : (paths demoEnds [11, 20, 13, 21, 10, 12, 22] [0, 1, 2, 3, 4, 5]).map St.seqs = some [[4, 2, 0], [1, 5, 3]] := by decide +kernel

-- the two triangles of C66: one path, from a border edge of the source mesh to one of the cut mesh: neither hole nor severing
example : ((cutEdges demoPs 6 demoTables.reg id (fun _ _ _ => true) demoTables.cut [(0, 1)] (addPoints (copyVertices () demoPs).1 demoTables.pts)).bind
    (fun st => (paths (endsOf st.m0) [7, 6] st.cutEdges).map (fun r => r.seqs.map (classify demoPs 1 6 demoTables.reg (endsOf st.m0))))) = some [some ⟨true, false, false⟩] := by
  decide +kernel

end Mcut.CutPaths
