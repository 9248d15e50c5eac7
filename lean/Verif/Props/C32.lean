import Verif.Lemmas.C32

/-! C32 — removal and descriptor reuse are coherent. -/
namespace Mcut.Hmesh
variable {P : Type}

/-- Spec: membership of the list of live elements. -/
example (size : Nat) (removed : List Nat) (x : Nat) : x ∈ liveList size removed ↔ Live size removed x := by
  simp [liveList, Live]

/-- C32: iterating over vertices, edges, halfedges or faces yields exactly the live elements, each once, in increasing order. -/
theorem C32_enumeration (m : Mesh P) :
    enumerateFrom m.vRem m.nV 0 = liveList m.nV m.vRem ∧ enumerateFrom m.eRem m.nE 0 = liveList m.nE m.eRem ∧
    enumerateFrom m.hRem m.nH 0 = liveList m.nH m.hRem ∧ enumerateFrom m.fRem m.nF 0 = liveList m.nF m.fRem :=
  ⟨enum_live _ _, enum_live _ _, enum_live _ _, enum_live _ _⟩

/-- C32: after every history the reported counts are the numbers of live elements. -/
theorem C32_counts {d : P} {m : Mesh P} (h : Reachable d m) :
    m.numVertices = (liveList m.nV m.vRem).length ∧ m.numEdges = (liveList m.nE m.eRem).length ∧
    m.numHalfedges = (liveList m.nH m.hRem).length ∧ m.numFaces = (liveList m.nF m.fRem).length ∧ m.numHalfedges = 2 * m.numEdges := by
  have W := reachable_wf h
  have hh : ∀ x ∈ m.hRem, x < m.nH := by
    intro x hx
    rw [W.hRem_eq, mem_pairs] at hx
    have := W.eRem_lt _ hx
    rw [W.nH_eq]; omega
  have hlen : m.hRem.length = 2 * m.eRem.length := by
    rw [W.hRem_eq]
    induction m.eRem with
    | nil => rfl
    | cons e l ih => rw [List.flatMap_cons, List.length_append, ih, List.length_cons]; simp [pair]; omega
  refine ⟨(count_live _ _ W.vRem_nd W.vRem_lt).symm, (count_live _ _ W.eRem_nd W.eRem_lt).symm, (count_live _ _ W.hRem_nd hh).symm,
    (count_live _ _ W.fRem_nd W.fRem_lt).symm, ?_⟩
  unfold Mesh.numHalfedges Mesh.numEdges
  rw [hlen, W.nH_eq]; omega

/-- C32: a new vertex never takes a live descriptor, exactly that descriptor becomes live, and it is the oldest removed one if there is any. -/
theorem C32_add_vertex {d : P} {m : Mesh P} (h : Reachable d m) (p : P) :
    ¬ LiveV m (m.addVertex p).2 ∧ (∀ x, LiveV (m.addVertex p).1 x ↔ LiveV m x ∨ x = (m.addVertex p).2) ∧
    (m.addVertex p).1.pos (m.addVertex p).2 = p ∧ (∀ x, LiveV m x → (m.addVertex p).1.pos x = m.pos x) ∧
    (m.addVertex p).2 = m.vRem.headD m.nV ∧ (m.addVertex p).1.vRem = m.vRem.tail := by
  obtain ⟨e, A⟩ := addVertex_spec (reachable_wf h) p
  rw [e]
  exact ⟨A.fresh, A.live, A.pos, A.pos_old, rfl, A.vRem⟩

/-- C32: the same for edges (whose halfedges are `2e` and `2e+1`, the first one is returned). -/
theorem C32_add_edge {d : P} {m : Mesh P} (h : Reachable d m) (v0 v1 : Nat) (hne : v0 ≠ v1) :
    ¬ LiveE m (edgeOf (m.addEdge v0 v1).2) ∧ ¬ LiveH m (m.addEdge v0 v1).2 ∧
    (∀ x, LiveE (m.addEdge v0 v1).1 x ↔ LiveE m x ∨ x = edgeOf (m.addEdge v0 v1).2) ∧
    edgeOf (m.addEdge v0 v1).2 = m.eRem.headD m.nE ∧
    (m.addEdge v0 v1).1.source (m.addEdge v0 v1).2 = some v0 ∧ (m.addEdge v0 v1).1.target (m.addEdge v0 v1).2 = v1 := by
  have W := reachable_wf h
  obtain ⟨e, E⟩ := addEdge_spec W v0 v1 hne
  have he : edgeOf (2 * newEdge m) = newEdge m := by unfold edgeOf; omega
  rw [e, he]
  refine ⟨E.fresh, fun hl => E.fresh ?_, E.live, rfl, ?_, ?_⟩
  · rw [W.liveH_iff] at hl; rwa [show 2 * newEdge m / 2 = newEdge m by omega] at hl
  · unfold Mesh.source; rw [E.hd0]; simp [E.hd1]
  · unfold Mesh.target; rw [E.hd0]

/-- C32: the same for faces. -/
theorem C32_add_face {d : P} {m : Mesh P} (h : Reachable d m) {vi : List Nat} (G : GoodPolygon m vi) (f : Nat)
    (hr : (m.addFace vi).2 = some f) :
    ¬ LiveF m f ∧ (∀ x, LiveF (m.addFace vi).1 x ↔ LiveF m x ∨ x = f) ∧ f = m.fRem.headD m.nF ∧ (m.addFace vi).1.fRem = m.fRem.tail := by
  have A := addFace_spec (reachable_wf h) G f hr
  exact ⟨A.fresh, A.live, A.idx_eq, A.fRem⟩

/-- C32: a removal makes exactly the removed element dead and queues it as the youngest one for reuse. -/
theorem C32_remove {d : P} {m : Mesh P} (h : Reachable d m) :
    (∀ v, LiveV m v → (∀ x, LiveV (m.removeVertex v) x ↔ LiveV m x ∧ x ≠ v) ∧ (m.removeVertex v).vRem = m.vRem ++ [v]) ∧
    (∀ f, LiveF m f → (∀ x, LiveF (m.removeFace f) x ↔ LiveF m x ∧ x ≠ f) ∧ (m.removeFace f).fRem = m.fRem ++ [f]) ∧
    (∀ e, LiveE m e → m.face (halfedgeOf e 0) = none → m.face (halfedgeOf e 1) = none →
      (∀ x, LiveE (m.removeEdge e) x ↔ LiveE m x ∧ x ≠ e) ∧ (∀ x, LiveH (m.removeEdge e) x ↔ LiveH m x ∧ edgeOf x ≠ e) ∧
      (m.removeEdge e).eRem = m.eRem ++ [e] ∧ (m.removeEdge e).hRem = m.hRem ++ [2 * e, 2 * e + 1]) := by
  have W := reachable_wf h
  refine ⟨fun v hv => ⟨fun x => ?_, rfl⟩, fun f hf => ⟨(removeFace_spec W hf).live, (removeFace_spec W hf).fRem⟩, fun e he h0 h1 => ?_⟩
  · unfold LiveV Live Mesh.removeVertex
    simp only [List.mem_append, List.mem_singleton, not_or]
    constructor
    · rintro ⟨a, b, c⟩; exact ⟨⟨a, b⟩, c⟩
    · rintro ⟨⟨a, b⟩, c⟩; exact ⟨a, b, c⟩
  · rw [halfedgeOf, show e * 2 + 0 = 2 * e by omega] at h0
    rw [halfedgeOf, show e * 2 + 1 = 2 * e + 1 by omega] at h1
    have R := removeEdge_spec W he h0 h1
    refine ⟨R.live, fun x => ?_, R.eRem, R.hRem⟩
    rw [R.wf.liveH_iff, R.live, W.liveH_iff]; rfl

/-- Non-vacuity: after removing the faces 2 and 0 the next two insertions take the descriptors 2 and 0, in this order. -/
example : ((runAll (Mesh.empty ()) (demoOps.take 8 ++ [.removeFace 2, .removeFace 0])).map (fun m =>
    ((m.addFace [0, 1, 2]).2, ((m.addFace [0, 1, 2]).1.addFace [1, 3, 2]).2, m.numFaces, enumerateFrom m.fRem m.nF 0))) =
    some (some 2, some 0, 2, [1, 3]) := by decide +kernel

end Mcut.Hmesh
