import Verif.Lemmas.C31

/-! C31 — rejected face insertions. -/
namespace Mcut.Hmesh
variable {P : Type}

/-- C31: for a polygon with pairwise distinct live vertices, `is_insertable` predicts exactly whether the insertion is accepted. -/
theorem C31_insertable_exact {d : P} {m : Mesh P} (h : Reachable d m) {vi : List Nat} (G : GoodPolygon m vi) (hnd : vi.Nodup) :
    m.isInsertable vi = true ↔ (m.addFace vi).2 ≠ none := by
  have W := reachable_wf h
  rw [isInsertable_iff, addFace_result]
  have hL : (cycPairs vi).Nodup := by
    have : ((cycPairs vi).map Prod.fst).Nodup := by rw [cycPairs_fst]; exact hnd
    exact List.Nodup.of_map _ this
  have A := loop_accepts (newFace m) (cycPairs vi) (loopMesh m) [] W.loop List.nodup_nil G.pairs hL
  have : (loopResult m vi).2.2 = true ↔ ∀ p ∈ cycPairs vi, EdgeFree m p := A
  rw [← this]
  by_cases hc : (loopResult m vi).2.2 = true <;> simp [hc]

/-- C31, in terms of the mesh: the insertion is refused only if some directed edge of the polygon is already used by a live face. -/
theorem C31_rejected_only_if_occupied {d : P} {m : Mesh P} (h : Reachable d m) {vi : List Nat} (G : GoodPolygon m vi) (hnd : vi.Nodup)
    (hr : (m.addFace vi).2 = none) : ∃ i, i < vi.length ∧ ∃ s t x g, vi[i]? = some s ∧ vi[(i + 1) % vi.length]? = some t ∧ LiveH m x ∧
      m.source x = some s ∧ m.target x = t ∧ m.face x = some g ∧ LiveF m g := by
  have W := reachable_wf h
  have hn : ¬ (m.isInsertable vi = true) := fun hi => (C31_insertable_exact h G hnd).1 hi hr
  rw [isInsertable_iff] at hn
  push Not at hn
  obtain ⟨p, hp, hf⟩ := hn
  unfold EdgeFree at hf
  push Not at hf
  obtain ⟨x, hx, hfx⟩ := hf
  obtain ⟨i, hi, h1, h2⟩ := cycPairs_mem vi p hp
  have hs := halfedge_some W p.1 p.2 (G.pairs p hp).2.2 x hx
  obtain ⟨g, hg⟩ := Option.ne_none_iff_exists'.1 hfx
  exact ⟨i, hi, p.1, p.2, x, g, h1, h2, hs.1, by rw [W.source hs.1, hs.2.1], hs.2.2, hg, (W.ofFace hs.1 hg).1⟩

/-- C31, what a refused insertion does preserve: all existing faces read back unchanged with unchanged successors, predecessors and membership of
their halfedges, and all vertices and coordinates are unchanged. (The full claim is false, see below.) -/
theorem C31_rejected_keeps_existing_partial {d : P} {m : Mesh P} (h : Reachable d m) {vi : List Nat} (G : GoodPolygon m vi)
    (hr : (m.addFace vi).2 = none) :
    (∀ g, LiveF m g → LiveF (m.addFace vi).1 g ∧ (m.addFace vi).1.fh g = m.fh g ∧
      (m.addFace vi).1.verticesAroundFace g = m.verticesAroundFace g ∧
      ∀ x ∈ m.fh g, (m.addFace vi).1.next x = m.next x ∧ (m.addFace vi).1.prev x = m.prev x ∧ (m.addFace vi).1.face x = m.face x) ∧
    (∀ v, LiveV (m.addFace vi).1 v ↔ LiveV m v) ∧ (m.addFace vi).1.pos = m.pos := by
  have W := reachable_wf h
  have R := W.loopOK G
  have F := R.frame
  have dead := W.newFace_dead
  rw [addFace_result] at hr
  have hno : ¬ (loopResult m vi).2.2 = true := by intro hc; rw [if_pos hc] at hr; simp at hr
  have hm' : (m.addFace vi).1.nF = m.nF ∧ (m.addFace vi).1.fRem = m.fRem.tail ∧ (m.addFace vi).1.hd = (loopResult m vi).1.hd ∧
      (m.addFace vi).1.nV = m.nV ∧ (m.addFace vi).1.vRem = m.vRem ∧ (m.addFace vi).1.pos = m.pos ∧
      ∀ g, g ≠ newFace m → (m.addFace vi).1.fh g = m.fh g := by
    cases hf : m.fRem with
    | nil =>
      rw [addFace_nil vi hf, if_neg hno]
      refine ⟨F.nF, ?_, rfl, F.nV, F.vRem, F.pos, fun g _ => by show (loopResult m vi).1.fh g = _; rw [F.fh]; rfl⟩
      show (loopResult m vi).1.fRem = _
      rw [F.fRem]; show m.fRem.tail = _; rw [hf]
    | cons a l =>
      rw [addFace_cons vi a l hf, if_neg hno]
      refine ⟨F.nF, ?_, rfl, F.nV, F.vRem, F.pos, fun g hg => ?_⟩
      · show (loopResult m vi).1.fRem = _
        rw [F.fRem]; show m.fRem.tail = _; rw [hf]
      · show upd (loopResult m vi).1.fh (newFace m) (loopResult m vi).2.1 g = _
        rw [upd_other _ _ _ _ hg, F.fh]; rfl
  obtain ⟨a1, a2, a3, a4, a5, a6, a7⟩ := hm'
  refine ⟨fun g hg => ?_, fun v => by unfold LiveV; rw [a4, a5], a6⟩
  have hgn : g ≠ newFace m := by rintro rfl; exact dead hg
  have K := W.faceOK hg
  refine ⟨⟨by rw [a1]; exact hg.1, ?_⟩, a7 g hgn, ?_, ?_⟩
  · rw [a2]; intro hm; exact hg.2 (List.mem_of_mem_tail hm)
  · unfold Mesh.verticesAroundFace
    rw [a7 g hgn]
    apply List.map_congr_left
    intro x hx
    unfold Mesh.target
    rw [a3]; exact (F.old x (K.mem x hx).1).2.1
  · intro x hx
    have o := F.old x (K.mem x hx).1
    unfold Mesh.next Mesh.prev Mesh.face
    rw [a3]
    refine ⟨o.2.2.1, o.2.2.2.1, ?_⟩
    rcases o.2.2.2.2.2.2 with h1 | ⟨h1, _, _⟩
    · exact h1
    · have h1' : (m.hd x).f = none := h1
      rw [(K.mem x hx).2] at h1'; simp at h1'

/-- C31 is false as stated: the insertion of `[3, 4, 0, 1]` is refused (the edge `0 → 1` is taken), but the number of edges has grown, and the triangle
`[3, 4, 2]`, which could have been inserted before, is now refused, too. -/
theorem C31_rejected_unchanged_fails : ∃ m : Mesh Unit, Reachable () m ∧ GoodPolygon m [3, 4, 0, 1] ∧ (m.addFace [3, 4, 0, 1]).2 = none ∧
    m.numEdges = 3 ∧ (m.addFace [3, 4, 0, 1]).1.numEdges = 5 ∧
    (m.addFace [3, 4, 2]).2 = some 1 ∧ ((m.addFace [3, 4, 0, 1]).1.addFace [3, 4, 2]).2 = none := by
  have h : (runAll (Mesh.empty ()) fiveOps).isSome = true := by decide +kernel
  obtain ⟨m, hm⟩ := Option.isSome_iff_exists.1 h
  have key : (runAll (Mesh.empty ()) fiveOps).map (fun m => (decide (GoodPolygon m [3, 4, 0, 1]), (m.addFace [3, 4, 0, 1]).2, m.numEdges,
      (m.addFace [3, 4, 0, 1]).1.numEdges, (m.addFace [3, 4, 2]).2, ((m.addFace [3, 4, 0, 1]).1.addFace [3, 4, 2]).2)) =
      some (true, none, 3, 5, some 1, none) := by
    rfl
  rw [hm] at key
  simp only [Option.map_some, Option.some.injEq, Prod.mk.injEq, decide_eq_true_eq] at key
  exact ⟨m, runAll_reachable _ _ _ Reachable.empty hm, key.1, key.2.1, key.2.2.1, key.2.2.2.1, key.2.2.2.2.1, key.2.2.2.2.2⟩

/-- C31, with a removed face slot: a refused insertion also makes the removed face reappear, with an incomplete boundary. -/
theorem C31_removed_face_reappears_fails : ∃ m : Mesh Unit, Reachable () m ∧ GoodPolygon m [3, 4, 0, 1] ∧ (m.addFace [3, 4, 0, 1]).2 = none ∧
    m.numFaces = 1 ∧ (m.addFace [3, 4, 0, 1]).1.numFaces = 2 ∧ (m.addFace [3, 4, 0, 1]).1.verticesAroundFace 1 = [4, 0] := by
  have h : (runAll (Mesh.empty ()) (fiveOps ++ [.addFace [2, 3, 4], .removeFace 1])).isSome = true := by decide +kernel
  obtain ⟨m, hm⟩ := Option.isSome_iff_exists.1 h
  have key : (runAll (Mesh.empty ()) (fiveOps ++ [.addFace [2, 3, 4], .removeFace 1])).map (fun m => (decide (GoodPolygon m [3, 4, 0, 1]),
      (m.addFace [3, 4, 0, 1]).2, m.numFaces, (m.addFace [3, 4, 0, 1]).1.numFaces, (m.addFace [3, 4, 0, 1]).1.verticesAroundFace 1)) =
      some (true, none, 1, 2, [4, 0]) := by
    decide +kernel
  rw [hm] at key
  simp only [Option.map_some, Option.some.injEq, Prod.mk.injEq, decide_eq_true_eq] at key
  exact ⟨m, runAll_reachable _ _ _ Reachable.empty hm, key.1, key.2.1, key.2.2.1, key.2.2.2.1, key.2.2.2.2⟩

end Mcut.Hmesh
