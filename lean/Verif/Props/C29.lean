import Verif.Lemmas.C29

/-! C29 — halfedge meshes stay consistent under every edit history. -/
namespace Mcut.Hmesh
variable {P : Type}

/-- C29: after any history of accepted insertions and removals (of any length, with vertex lists of any length and content) the connectivity is
consistent. -/
theorem C29_consistent {d : P} {m : Mesh P} (h : Reachable d m) : Consistent m := (reachable_wf h).consistent

/-- C29, no halfedge belongs to two faces: the lists of different faces are disjoint. -/
theorem C29_one_face {d : P} {m : Mesh P} (h : Reachable d m) (f g x : Nat) (hf : LiveF m f) (hg : LiveF m g) (hxf : x ∈ m.fh f)
    (hxg : x ∈ m.fh g) : f = g := by
  have C := C29_consistent h
  have a := ((C.face_list f hf).2.2 x hxf).2
  have b := ((C.face_list g hg).2.2 x hxg).2
  rw [a] at b
  exact Option.some.inj b

/-- C29: the halfedges listed for a live face form one closed cycle in list order: each one's successor is the next one in the list (cyclically), whose
predecessor is it and whose source is its target. -/
theorem C29_cycle {d : P} {m : Mesh P} (h : Reachable d m) (f : Nat) (hf : LiveF m f) (i : Nat) (hi : i < (m.fh f).length) :
    ∃ a b, (m.fh f)[i]? = some a ∧ (m.fh f)[(i + 1) % (m.fh f).length]? = some b ∧ m.next a = some b ∧ m.prev b = some a ∧
      m.source b = some (m.target a) := by
  have W := reachable_wf h
  have K := W.faceOK hf
  have hp : ((m.fh f)[i], (m.fh f)[(i + 1) % (m.fh f).length]'(Nat.mod_lt _ (by omega))) ∈ cycPairs (m.fh f) := by
    unfold cycPairs
    have hlen : i < ((m.fh f).zip ((m.fh f).rotate 1)).length := by simp [hi]
    have : ((m.fh f).zip ((m.fh f).rotate 1))[i] = ((m.fh f)[i], (m.fh f)[(i + 1) % (m.fh f).length]'(Nat.mod_lt _ (by omega))) := by
      rw [List.getElem_zip, List.getElem_rotate]
    rw [← this]; exact List.getElem_mem hlen
  have c := K.chain _ hp
  have l2 := (K.mem _ (List.getElem_mem (Nat.mod_lt (i + 1) (show 0 < (m.fh f).length by omega)))).1
  refine ⟨_, _, List.getElem?_eq_getElem hi, List.getElem?_eq_getElem (Nat.mod_lt _ (by omega)), c.1, c.2.1, ?_⟩
  rw [W.source l2, c.2.2]; rfl

/-- Non-vacuity: a mesh with all kinds of operations in its history is reachable; it has four faces, the third halfedge is really chained. -/
example : ∃ m : Mesh Unit, Reachable () m ∧ m.numFaces = 4 ∧ m.numEdges = 6 ∧ m.numVertices = 4 ∧ m.next 0 = some 2 := by
  have h : (runAll (Mesh.empty ()) demoOps).isSome = true := by decide +kernel
  obtain ⟨m, hm⟩ := Option.isSome_iff_exists.1 h
  refine ⟨m, runAll_reachable _ _ _ Reachable.empty hm, ?_⟩
  have key : (runAll (Mesh.empty ()) demoOps).map (fun m => (m.numFaces, m.numEdges, m.numVertices, m.next 0)) = some (4, 6, 4, some 2) := by
    decide +kernel
  rw [hm] at key
  simp only [Option.map_some, Option.some.injEq, Prod.mk.injEq] at key
  exact ⟨key.1, key.2.1, key.2.2.1, key.2.2.2⟩

end Mcut.Hmesh
