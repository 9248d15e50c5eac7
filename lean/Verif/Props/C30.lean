import Verif.Props.C29

/-! C30 — a face reads back the vertices it was created with. -/
namespace Mcut.Hmesh
variable {P : Type}

/-- C30: after an accepted insertion the vertices around the new face are the given ones in the same cyclic order (starting with the second one). -/
theorem C30_reads_back {d : P} {m : Mesh P} (h : Reachable d m) {vi : List Nat} (G : GoodPolygon m vi) (f : Nat)
    (hr : (m.addFace vi).2 = some f) :
    LiveF (m.addFace vi).1 f ∧ ¬ LiveF m f ∧ (m.addFace vi).1.verticesAroundFace f = vi.rotate 1 ∧
    (m.addFace vi).1.verticesAroundFace f ~r vi := by
  have A := addFace_spec (reachable_wf h) G f hr
  have : (m.addFace vi).1.verticesAroundFace f = vi.rotate 1 := A.list
  refine ⟨(A.live f).2 (Or.inr rfl), A.fresh, this, ?_⟩
  rw [this]; exact (List.IsRotated.symm ⟨1, rfl⟩)

/-- C30: all previously existing faces still read back unchanged, and so do the vertices and their coordinates; no other face appears. -/
theorem C30_others_unchanged {d : P} {m : Mesh P} (h : Reachable d m) {vi : List Nat} (G : GoodPolygon m vi) (f : Nat)
    (hr : (m.addFace vi).2 = some f) :
    (∀ g, LiveF m g → LiveF (m.addFace vi).1 g ∧ (m.addFace vi).1.verticesAroundFace g = m.verticesAroundFace g) ∧
    (∀ g, LiveF (m.addFace vi).1 g → LiveF m g ∨ g = f) ∧
    (∀ v, LiveV (m.addFace vi).1 v ↔ LiveV m v) ∧ (m.addFace vi).1.pos = m.pos := by
  have W := reachable_wf h
  have A := addFace_spec W G f hr
  refine ⟨fun g hg => ⟨(A.live g).2 (Or.inl hg), ?_⟩, fun g hg => (A.live g).1 hg, fun v => ?_, A.pos⟩
  · unfold Mesh.verticesAroundFace
    rw [A.old_list g hg]
    apply List.map_congr_left
    intro x hx
    exact (A.old_h x ((W.faceOK hg).mem x hx).1).2.1
  · unfold LiveV; rw [A.nV, A.vRem]

/-- C30: removing a face leaves every other face reading back unchanged. -/
theorem C30_remove_others_unchanged {d : P} {m : Mesh P} (h : Reachable d m) (f : Nat) (hf : LiveF m f) :
    ¬ LiveF (m.removeFace f) f ∧
    ∀ g, g ≠ f → LiveF m g → LiveF (m.removeFace f) g ∧ (m.removeFace f).verticesAroundFace g = m.verticesAroundFace g := by
  have R := removeFace_spec (reachable_wf h) hf
  refine ⟨fun hl => ((R.live f).1 hl).2 rfl, fun g hg hl => ⟨(R.live g).2 ⟨hl, hg⟩, ?_⟩⟩
  unfold Mesh.verticesAroundFace
  rw [R.fh]
  apply List.map_congr_left
  intro x _; exact R.tgt x

/-- Non-vacuity: inserting the face `[2, 3, 0]` into a mesh with faces is accepted and reads back `[3, 0, 2]`. -/
example : ∃ m : Mesh Unit, Reachable () m ∧ GoodPolygon m [2, 3, 0] ∧ m.numFaces = 3 ∧ (m.addFace [2, 3, 0]).2 = some 3 ∧
    (m.addFace [2, 3, 0]).1.verticesAroundFace 3 = [3, 0, 2] := by
  have h : (runAll (Mesh.empty ()) (demoOps.take 7)).isSome = true := by decide +kernel
  obtain ⟨m, hm⟩ := Option.isSome_iff_exists.1 h
  have key : (runAll (Mesh.empty ()) (demoOps.take 7)).map (fun m => (decide (GoodPolygon m [2, 3, 0]), m.numFaces, (m.addFace [2, 3, 0]).2,
      (m.addFace [2, 3, 0]).1.verticesAroundFace 3)) = some (true, 3, some 3, [3, 0, 2]) := by
    decide +kernel
  rw [hm] at key
  simp only [Option.map_some, Option.some.injEq, Prod.mk.injEq, decide_eq_true_eq] at key
  exact ⟨m, runAll_reachable _ _ _ Reachable.empty hm, key.1, key.2.1, key.2.2.1, key.2.2.2⟩

end Mcut.Hmesh
