import Verif.Spec.C59
import Verif.Props.C34
import Verif.Props.C17

/-! Helper lemmas for C59: inserting the traced polygons. -/
namespace Mcut.Extract
open Mcut.Hmesh Mcut.Preproc
variable {P : Type}

/-- The mesh after inserting the polygons `fs` (vertex lists) along existing halfedges of `m0`. -/
structure Ins (d : P) (m0 : Mesh P) (fs : List (List Nat)) (m : Mesh P) : Prop where
  reach : Reachable d m
  vRem : m.vRem = []
  fRem : m.fRem = []
  nV : m.nV = m0.nV
  nF : m.nF = fs.length
  pos : m.pos = m0.pos
  tgts : ∀ i f, fs[i]? = some f → (m.fh i).map (fun h => (m.hd h).t) = f.rotate 1
  srcs : ∀ i f, fs[i]? = some f → (m.fh i).map (fun h => (m.hd (opposite h)).t) = f
  live : ∀ h, LiveH m h ↔ LiveH m0 h
  tgt : ∀ h, (m.hd h).t = (m0.hd h).t

variable {d : P} {m0 m : Mesh P} {fs : List (List Nat)}

theorem Ins.liveF (B : Ins d m0 fs m) (i : Nat) : LiveF m i ↔ i < fs.length := by
  unfold LiveF Live; rw [B.fRem, B.nF]; simp

theorem Ins.liveV (B : Ins d m0 fs m) (v : Nat) : LiveV m v ↔ v < m0.nV := by
  unfold LiveV Live; rw [B.vRem, B.nV]; simp

theorem Ins.face_pairs (B : Ins d m0 fs m) (i : Nat) (f : List Nat) (hf : fs[i]? = some f) :
    (m.fh i).map (fun h => ((m.hd (opposite h)).t, (m.hd h).t)) = cycPairs f :=
  pairs_of_maps _ _ _ _ (B.srcs i f hf) (B.tgts i f hf)

theorem Ins.free (B : Ins d m0 fs m) (p : Nat × Nat) (hne : p.1 ≠ p.2) (hp : p ∉ fs.flatMap cycPairs) : EdgeFree m p := by
  have W := reachable_wf B.reach
  intro h hh
  have hs := halfedge_some W _ _ hne h hh
  cases hf : (m.hd h).f with
  | none => rfl
  | some g =>
    obtain ⟨lg, hg⟩ := W.ofFace hs.1 hf
    have hi := (B.liveF g).1 lg
    exfalso
    apply hp
    refine List.mem_flatMap.2 ⟨fs[g], List.getElem_mem hi, ?_⟩
    rw [← B.face_pairs g fs[g] (by simp [hi])]
    refine List.mem_map.2 ⟨h, hg, ?_⟩
    rw [hs.2.1, hs.2.2]

/-- The insertion loop allocates nothing when all the directed edges exist. -/
theorem loop_same (new : Nat) : ∀ (L : List (Nat × Nat)) (m : Mesh P) (acc : List Nat), (∀ p ∈ L, m.halfedge p.1 p.2 true ≠ none) →
    (Mesh.addFaceLoop new m acc L).1.nH = m.nH ∧ (Mesh.addFaceLoop new m acc L).1.hRem = m.hRem ∧
    ∀ h, ((Mesh.addFaceLoop new m acc L).1.hd h).t = (m.hd h).t := by
  intro L
  induction L with
  | nil => intro m acc _; exact ⟨rfl, rfl, fun _ => rfl⟩
  | cons p L ih =>
    obtain ⟨v0, v1⟩ := p
    intro m acc hL
    unfold Mesh.addFaceLoop
    obtain ⟨h, hh⟩ := Option.ne_none_iff_exists'.1 (hL (v0, v1) (by simp))
    have e : m.getOrAdd v0 v1 = (m, h) := by unfold Mesh.getOrAdd; simp only at hh; rw [hh]
    simp only [e]
    split
    · exact ⟨rfl, rfl, fun _ => rfl⟩
    · have := ih (m.mark h new) (acc ++ [h]) (by
        intro p hp
        rw [mark_halfedge]; exact hL p (by simp [hp]))
      refine ⟨this.1, this.2.1, fun x => ?_⟩
      refine (this.2.2 x).trans ?_
      unfold Mesh.mark upd
      simp only
      split <;> simp_all

theorem Ins.accept (B : Ins d m0 fs m) (f : List Nat) (G : GoodFace m0.nV f) (hs : ∀ p ∈ cycPairs f, ∃ h, LiveH m0 h ∧ m0.source h = some p.1 ∧ m0.target h = p.2)
    (W0 : WF m0) (hn : ∀ p ∈ cycPairs f, p ∉ fs.flatMap cycPairs) :
    (m.addFace f).2 ≠ none ∧ Ins d m0 (fs ++ [f]) (m.addFace f).1 := by
  have W := reachable_wf B.reach
  have GP : GoodPolygon m f := nodup_good G.1 G.2.1 (fun v hv => (B.liveV v).2 (G.2.2 v hv))
  have hok : (m.addFace f).2 ≠ none := by
    rw [← C31_insertable_exact B.reach GP G.2.1, isInsertable_iff]
    intro p hp; exact B.free p (GP.pairs p hp).2.2 (hn p hp)
  refine ⟨hok, ?_⟩
  obtain ⟨idx, hidx⟩ := Option.ne_none_iff_exists'.1 hok
  have A := addFace_spec W GP idx hidx
  have hr : Reachable d (m.addFace f).1 := .step m (.addFace f) B.reach ⟨GP, hok⟩
  have hidx' : idx = fs.length := by rw [A.idx_eq]; simp [newFace, B.fRem, B.nF]
  subst hidx'
  have hold : ∀ i g, fs[i]? = some g → i < fs.length := fun i g h => (List.getElem?_eq_some_iff.1 h).1
  have hfound : ∀ p ∈ cycPairs f, (loopMesh m).halfedge p.1 p.2 true ≠ none := by
    intro p hp hnone
    rw [loopMesh_halfedge] at hnone
    obtain ⟨h, h1, h2, h3⟩ := hs p hp
    have hne := (GP.pairs p hp).2.2
    have hl := (B.live h).2 h1
    refine (halfedge_none W _ _ hne).1 hnone h hl ?_ ?_
    · rw [W.source hl, B.tgt]
      rw [W0.source h1] at h2; exact h2
    · show (m.hd h).t = p.2
      rw [B.tgt]; exact h3
  have hloop : (m.addFace f).1.nH = m.nH ∧ (m.addFace f).1.hRem = m.hRem ∧ ∀ h, ((m.addFace f).1.hd h).t = (m.hd h).t := by
    have L := loop_same (newFace m) (cycPairs f) (loopMesh m) [] hfound
    rw [addFace_result] at hidx
    have hc : (loopResult m f).2.2 = true := by by_contra hc; rw [if_neg hc] at hidx; simp at hidx
    rw [addFace_nil f B.fRem, if_pos hc]
    refine ⟨?_, ?_, fun h => ?_⟩
    · rw [(link_same _ _).2.2.1]; exact L.1
    · rw [(link_same _ _).2.2.2.2.2.2.2.2.2.2.1]; exact L.2.1
    · rw [(link_frame _ _ h).1]; exact L.2.2 h
  refine ⟨hr, by rw [A.vRem, B.vRem], by rw [A.fRem, B.fRem]; rfl, by rw [A.nV, B.nV], by rw [A.nF, if_pos B.fRem, B.nF]; simp, by rw [A.pos, B.pos],
    ?_, ?_, ?_, ?_⟩
  · intro i g hg
    by_cases hi : i = fs.length
    · subst hi
      rw [List.getElem?_append_right (by omega)] at hg
      simp at hg; subst hg; exact A.list
    · have hlt : i < fs.length := by have := (List.getElem?_eq_some_iff.1 hg).1; simp at this; omega
      rw [List.getElem?_append_left hlt] at hg
      rw [A.old_list i ((B.liveF i).2 hlt), ← B.tgts i g hg]
      apply List.map_congr_left
      intro x hx
      exact (A.old_h x ((W.faceOK ((B.liveF i).2 hlt)).mem x hx).1).2.1
  · intro i g hg
    by_cases hi : i = fs.length
    · subst hi
      rw [List.getElem?_append_right (by omega)] at hg
      simp at hg; subst hg; exact A.srcs
    · have hlt : i < fs.length := by have := (List.getElem?_eq_some_iff.1 hg).1; simp at this; omega
      rw [List.getElem?_append_left hlt] at hg
      rw [A.old_list i ((B.liveF i).2 hlt), ← B.srcs i g hg]
      apply List.map_congr_left
      intro x hx
      exact (A.old_h _ (W.opp_live ((W.faceOK ((B.liveF i).2 hlt)).mem x hx).1)).2.1
  · intro h; rw [← B.live h]; unfold LiveH; rw [hloop.1, hloop.2.1]
  · intro h; rw [hloop.2.2, B.tgt]

/-- The directed sides of a traced polygon are halfedges of the mesh. -/
theorem Traced.sides {polys : List (List Nat)} (T : Traced m0 polys) (p : List Nat) (hp : p ∈ polys) :
    ∀ q ∈ cycPairs (p.map m0.target), ∃ h, LiveH m0 h ∧ m0.source h = some q.1 ∧ m0.target h = q.2 := by
  intro q hq
  rw [← dirEdges_eq] at hq
  obtain ⟨i, hi, rfl⟩ := List.mem_map.1 hq
  rw [List.mem_range, List.length_map] at hi
  have hj : (i + 1) % p.length < p.length := Nat.mod_lt _ (by omega)
  refine ⟨p.getD ((i + 1) % p.length) 0, ?_, ?_, ?_⟩
  · rw [List.getD_eq_getElem?_getD, List.getElem?_eq_getElem hj]
    exact T.live p hp _ (List.getElem_mem hj)
  · rw [T.closed p hp i hi]
    simp [List.getD_eq_getElem?_getD, List.getElem?_eq_getElem hi]
  · simp [List.getD_eq_getElem?_getD, List.getElem?_eq_getElem hj]

theorem insert_spec {polys : List (List Nat)} (hr : Reachable d m0) (T : Traced m0 polys) :
    Ins d m0 (polys.map (fun p => p.map m0.target)) (insertPolygons m0 polys) := by
  have W0 := reachable_wf hr
  have base : Ins d m0 [] m0 := ⟨hr, T.noRemoved.1, T.noRemoved.2, rfl, T.noFaces, rfl, by simp, by simp, fun _ => Iff.rfl, fun _ => rfl⟩
  have go : ∀ (rest done : List (List Nat)) (m : Mesh P), done ++ rest = polys → Ins d m0 (done.map (fun p => p.map m0.target)) m →
      Ins d m0 (polys.map (fun p => p.map m0.target)) (rest.foldl (fun m' p => (m'.addFace (p.map m0.target)).1) m) := by
    intro rest
    induction rest with
    | nil => intro done m hd B; rw [List.append_nil] at hd; subst hd; exact B
    | cons p rest ih =>
      intro done m hd B
      have hp : p ∈ polys := by rw [← hd]; simp
      have hn : ∀ q ∈ cycPairs (p.map m0.target), q ∉ (done.map (fun p => p.map m0.target)).flatMap cycPairs := by
        intro q hq hq'
        have hv := T.valid.2
        have e : (fun f : List Nat => dirEdges f) = cycPairs := by funext f; exact dirEdges_eq f
        rw [show dirEdges = cycPairs from e, ← hd, List.map_append, List.map_cons, List.flatMap_append, List.flatMap_cons] at hv
        rw [List.nodup_append] at hv
        exact hv.2.2 q hq' q (List.mem_append_left _ hq) rfl
      have A := B.accept (p.map m0.target) (T.valid.1 _ (List.mem_map.2 ⟨p, hp, rfl⟩)) (T.sides p hp) W0 hn
      refine ih (done ++ [p]) _ (by rw [← hd]; simp) ?_
      simpa using A.2
  exact go polys [] m0 rfl base

end Mcut.Extract
