import Verif.Spec.C72
import Verif.Lemmas.C60
import Verif.Lemmas.C33
import Verif.Lemmas.HmeshRemove

/-! Helper lemmas for C72. -/
namespace Mcut.Hmesh
open Mcut.Preproc
variable {P : Type}

theorem Careful.reach {d : P} {m : Mesh P} (h : Careful d m) : Reachable d m := by
  induction h with
  | empty => exact .empty
  | step m op _ hl _ ih => exact .step m op ih hl

/-- `Uniq` only depends on the live halfedges and their ends. -/
theorem _root_.Mcut.Preproc.Uniq.of {m m' : Mesh P} (U : Uniq m) (hl : ∀ x, LiveH m' x → LiveH m x) (ht : ∀ x, (m'.hd x).t = (m.hd x).t) : Uniq m' := by
  intro x y hx hy hs h2
  rw [ht, ht] at hs h2
  exact U x y (hl x hx) (hl y hy) hs h2

/-- Every mesh only uses the edges of the list of all pairs of ends of its own halfedges. -/
theorem only_own (m : Mesh P) : Only m ((List.range m.nH).map (fun x => ((m.hd (opposite x)).t, (m.hd x).t))) := by
  intro x hx
  exact Or.inl (List.mem_map.2 ⟨x, List.mem_range.2 hx.1, rfl⟩)

theorem addFace_uniq {m : Mesh P} (W : WF m) {vi : List Nat} (G : GoodPolygon m vi) (hok : (m.addFace vi).2 ≠ none) (U : Uniq m) : Uniq (m.addFace vi).1 := by
  have hlm : (loopMesh m).hd = m.hd ∧ ∀ x, LiveH (loopMesh m) x ↔ LiveH m x := ⟨rfl, fun _ => Iff.rfl⟩
  have U' : Uniq (loopMesh m) := U
  have L := (loop_uniq (newFace m) (cycPairs vi) (loopMesh m) [] _ W.loop G.pairs U' (only_own (loopMesh m))).1
  change Uniq (loopResult m vi).1 at L
  have hc : (loopResult m vi).2.2 = true := by
    by_contra hc
    exact hok (by rw [addFace_result, if_neg hc])
  have hlive : ∀ m' : Mesh P, ∀ L x, LiveH (m'.link L) x ↔ LiveH m' x := by
    intro m' L x
    have s := link_same L m'
    unfold LiveH Live; rw [s.2.2.1, s.2.2.2.2.2.2.2.2.2.2.1]
  have ht : ∀ m' : Mesh P, ∀ L x, ((m'.link L).hd x).t = (m'.hd x).t := fun m' L x => (link_frame L m' x).1
  cases h : m.fRem with
  | nil =>
    rw [addFace_nil vi h, if_pos hc]
    intro x y hx hy hs h2
    rw [hlive] at hx hy
    rw [ht, ht] at hs h2
    exact L x y hx hy hs h2
  | cons a l =>
    rw [addFace_cons vi a l h, if_pos hc]
    intro x y hx hy hs h2
    rw [hlive] at hx hy
    rw [ht, ht] at hs h2
    exact L x y hx hy hs h2

theorem addVertex_uniq {m : Mesh P} (W : WF m) (p : P) (U : Uniq m) : Uniq (m.addVertex p).1 := by
  have o := (addVertex_spec W p).2.others
  exact U.of (fun x hx => by unfold LiveH at *; rw [o.2.1, o.2.2.2.2.1] at hx; exact hx) (fun x => by rw [o.2.2.2.2.2.2.1])

theorem Careful.uniq {d : P} {m : Mesh P} (h : Careful d m) : Uniq m := by
  induction h with
  | empty => intro x y hx; exact absurd hx.1 (by simp [Mesh.empty])
  | step m op hm hl hc ih =>
    have W := reachable_wf hm.reach
    cases op with
    | addVertex p => exact addVertex_uniq W p ih
    | addEdge v0 v1 =>
      have := (getOrAdd_uniq W v0 v1 hl.2.2 _ ih (only_own m)).1
      unfold Mesh.getOrAdd at this
      rw [hc v0 v1 rfl] at this
      exact this
    | addFace vi => exact addFace_uniq W hl.1 hl.2 ih
    | removeFace f =>
      have R := removeFace_spec W hl
      exact ih.of (m' := m.removeFace f) (fun x hx => by unfold LiveH at *; rw [R.others.2.2.1, R.others.2.2.2.2.2.2.2] at hx; exact hx) R.tgt
    | removeEdge e =>
      have hl' : (m.hd (2 * e)).f = none ∧ (m.hd (2 * e + 1)).f = none := by
        have h0 := hl.2.1; have h1 := hl.2.2
        unfold Mesh.face halfedgeOf at h0 h1
        rw [Nat.mul_comm] at h0 h1
        exact ⟨h0, h1⟩
      have R := removeEdge_spec W hl.1 hl'.1 hl'.2
      exact ih.of (m' := m.removeEdge e) (fun x hx => by
        unfold LiveH Live at *
        rw [R.others.2.2.1, R.hRem, List.mem_append, not_or] at hx
        exact ⟨hx.1, hx.2.1⟩) (fun x => (R.tgt x).1)
    | removeVertex v => exact ih

/-- `Uniq` in terms of the edges. -/
theorem _root_.Mcut.Preproc.Uniq.simple {m : Mesh P} (W : WF m) (U : Uniq m) : Trace.SimpleEdges m := by
  intro a b v w ha hb h1 h2
  have l0 : ∀ e, LiveE m e → LiveH m (2 * e) := fun e he => (W.liveH_iff _).2 (by rwa [show 2 * e / 2 = e by omega])
  have l1 : ∀ e, LiveE m e → LiveH m (2 * e + 1) := fun e he => (W.liveH_iff _).2 (by rwa [show (2 * e + 1) / 2 = e by omega])
  have t0 : ∀ e, m.edgeVertex e 0 = (m.hd (2 * e)).t := fun e => by unfold Mesh.edgeVertex Mesh.target; rw [Nat.mul_comm]; rfl
  have t1 : ∀ e, m.edgeVertex e 1 = (m.hd (2 * e + 1)).t := fun e => by unfold Mesh.edgeVertex Mesh.target; rw [Nat.mul_comm]
  unfold CutEdges.Joins at h1 h2
  rw [t0, t1] at h1 h2
  rcases h1 with ⟨h1, h1'⟩ | ⟨h1, h1'⟩ <;> rcases h2 with ⟨h2, h2'⟩ | ⟨h2, h2'⟩
  · have := U (2 * a) (2 * b) (l0 a ha) (l0 b hb) (by rw [opposite_even, opposite_even, h1', h2']) (by rw [h1, h2]); omega
  · have := U (2 * a) (2 * b + 1) (l0 a ha) (l1 b hb) (by rw [opposite_even, opposite_odd, h1', h2]) (by rw [h1, h2']); omega
  · have := U (2 * a) (2 * b + 1) (l0 a ha) (l1 b hb) (by rw [opposite_even, opposite_odd, h1', h2]) (by rw [h1, h2']); omega
  · have := U (2 * a) (2 * b) (l0 a ha) (l0 b hb) (by rw [opposite_even, opposite_even, h1', h2']) (by rw [h1, h2]); omega

theorem Careful.addFaces {d : P} : ∀ (fs : List (List Nat)) (m : Mesh P), Careful d m → (∀ f ∈ fs, 3 ≤ f.length ∧ f.Nodup ∧ ∀ v ∈ f, LiveV m v) → (Preproc.addFaces m fs).2 = true →
    Careful d (Preproc.addFaces m fs).1 := by
  intro fs
  induction fs with
  | nil => intro m h _ _; exact h
  | cons f fs ih =>
    intro m h hg hok
    unfold Preproc.addFaces at hok ⊢
    have G := hg f (by simp)
    have GP : GoodPolygon m f := nodup_good G.1 G.2.1 G.2.2
    cases hr : (m.addFace f).2 with
    | none => simp [hr] at hok
    | some idx =>
      have A := addFace_spec (reachable_wf h.reach) GP idx hr
      simp only [hr, reduceCtorEq, if_false] at hok ⊢
      refine ih _ (.step m (.addFace f) h ⟨GP, by rw [hr]; simp⟩ (by intro _ _ e; cases e)) ?_ hok
      intro g hg'
      have := hg g (by simp [hg'])
      refine ⟨this.1, this.2.1, fun v hv => ?_⟩
      have := this.2.2 v hv
      unfold LiveV at *
      rw [A.nV, A.vRem]; exact this

end Mcut.Hmesh

namespace Mcut.Extract
open Mcut.Hmesh Mcut.Preproc
variable {P : Type} {d : P}

theorem mergeFaces_careful (cs : Mesh P) (off : Nat) : ∀ (is : List Nat) (s : Mesh P × List Nat) (r : Mesh P × List Nat), Careful d s.1 → mergeFaces cs off is s = some r →
    (∀ i ∈ is, 3 ≤ (cs.verticesAroundFace i).length ∧ (cs.verticesAroundFace i).Nodup ∧ ∀ v ∈ cs.verticesAroundFace i, LiveV s.1 (v + off)) → Careful d r.1 := by
  intro is
  induction is with
  | nil => intro s r h e _; simp only [mergeFaces, Option.some.injEq] at e; rw [← e]; exact h
  | cons i is ih =>
    intro s r h e hg
    unfold mergeFaces at e
    simp only at e
    have G := hg i (by simp)
    have GP : GoodPolygon s.1 ((cs.verticesAroundFace i).map (fun v => v + off)) := by
      refine nodup_good (by simpa using G.1) (G.2.1.map (fun a b hab => by simpa using hab)) ?_
      intro v hv
      obtain ⟨w, hw, rfl⟩ := List.mem_map.1 hv
      exact G.2.2 w hw
    cases hr : (s.1.addFace ((cs.verticesAroundFace i).map (fun v => v + off))).2 with
    | none => rw [hr] at e; simp at e
    | some idx =>
      rw [hr] at e
      simp only [Option.bind_some] at e
      have A := addFace_spec (reachable_wf h.reach) GP idx hr
      refine ih _ r (.step s.1 (.addFace _) h ⟨GP, by rw [hr]; simp⟩ (by intro _ _ e; cases e)) e ?_
      intro g hg'
      have := hg g (by simp [hg'])
      refine ⟨this.1, this.2.1, fun v hv => ?_⟩
      have := this.2.2 v hv
      unfold LiveV at *
      rw [A.nV, A.vRem]; exact this

theorem mergeVertices_careful (cs : Mesh P) : ∀ (l : List Nat) (s : Mesh P × List Nat), Careful d s.1 →
    Careful d (l.foldl (fun s i => ((s.1.addVertex (cs.pos i)).1, s.2.set (s.1.addVertex (cs.pos i)).2 i)) s).1 := by
  intro l
  induction l with
  | nil => intro s h; exact h
  | cons i l ih =>
    intro s h
    rw [List.foldl_cons]
    exact ih _ (.step s.1 (.addVertex _) h trivial (by intro _ _ e; cases e))

end Mcut.Extract
