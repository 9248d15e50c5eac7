import Verif.Spec.C78
import Verif.Lemmas.C72

/-!
# Lemmas for C78: meshes that are made of faces have no loose edges
-/
namespace Mcut.Split
open Mcut.Hmesh Mcut.Preproc Mcut.Extract
variable {P : Type} {d : P}

theorem FromFaces.careful {m : Mesh P} (h : FromFaces d m) : Careful d m := by
  induction h with
  | empty => exact .empty
  | vertex m p _ ih => exact .step m (.addVertex p) ih trivial (by intro _ _ e; cases e)
  | face m vi _ hg hok ih => exact .step m (.addFace vi) ih ⟨hg, hok⟩ (by intro _ _ e; cases e)

theorem addFace_only {m : Mesh P} (W : WF m) {vi : List Nat} (G : GoodPolygon m vi) (hok : (m.addFace vi).2 ≠ none) (U : Uniq m) {E : List (Nat × Nat)} (O : Only m E) :
    Only (m.addFace vi).1 (E ++ cycPairs vi) := by
  have U' : Uniq (loopMesh m) := U
  have O' : Only (loopMesh m) E := O
  have L := (loop_uniq (newFace m) (cycPairs vi) (loopMesh m) [] _ W.loop G.pairs U' O').2
  change Only (loopResult m vi).1 _ at L
  have hc : (loopResult m vi).2.2 = true := by
    by_contra hc
    exact hok (by rw [addFace_result, if_neg hc])
  have hlive : ∀ m' : Mesh P, ∀ L x, LiveH (m'.link L) x ↔ LiveH m' x := by
    intro m' L x
    have s := link_same L m'
    unfold LiveH Live; rw [s.2.2.1, s.2.2.2.2.2.2.2.2.2.2.1]
  have ht : ∀ m' : Mesh P, ∀ L x, ((m'.link L).hd x).t = (m'.hd x).t := fun m' L x => (link_frame L m' x).1
  cases h : m.fRem with
  | nil =>
    rw [addFace_nil vi h, if_pos hc]
    intro x hx
    rw [hlive] at hx
    rw [ht, ht]
    exact L x hx
  | cons a l =>
    rw [addFace_cons vi a l h, if_pos hc]
    intro x hx
    rw [hlive] at hx
    rw [ht, ht]
    exact L x hx

/-- Every edge belongs to a face. -/
theorem FromFaces.noLoose {m : Mesh P} (h : FromFaces d m) : NoLooseEdges m := by
  induction h with
  | empty => intro x hx; exact absurd hx.1 (by simp [Mesh.empty])
  | vertex m p hm ih =>
    have o := (addVertex_spec (reachable_wf hm.careful.reach) p).2.others
    intro x hx
    have hx' : LiveH m x := by unfold LiveH at *; rw [o.2.1, o.2.2.2.2.1] at hx; exact hx
    unfold Mesh.face
    rw [o.2.2.2.2.2.2.1]
    exact ih x hx'
  | face m vi hm hg hok ih =>
    classical
    have W := reachable_wf hm.careful.reach
    obtain ⟨idx, hr⟩ := Option.ne_none_iff_exists'.1 hok
    have A := addFace_spec W hg idx hr
    have C := FromFaces.face m vi hm hg hok
    have U := C.careful.uniq
    have O := addFace_only W hg hok hm.careful.uniq (E := ((List.range m.nH).filter (fun x => decide (LiveH m x))).map (fun x => ((m.hd (opposite x)).t, (m.hd x).t))) (by
      intro x hx
      exact Or.inl (List.mem_map.2 ⟨x, List.mem_filter.2 ⟨List.mem_range.2 hx.1, by simpa using hx⟩, rfl⟩))
    have CC := C29_consistent C.careful.reach
    have key : ∀ x, LiveH (m.addFace vi).1 x → (((m.addFace vi).1.hd (opposite x)).t, ((m.addFace vi).1.hd x).t) ∈
        ((List.range m.nH).filter (fun x => decide (LiveH m x))).map (fun x => ((m.hd (opposite x)).t, (m.hd x).t)) ++ cycPairs vi →
        (m.addFace vi).1.face x ≠ none ∨ (m.addFace vi).1.face (opposite x) ≠ none := by
      intro x hx hmem
      rcases List.mem_append.1 hmem with hm' | hm'
      · obtain ⟨y, hy, e⟩ := List.mem_map.1 hm'
        have ly : LiveH m y := by simpa using (List.mem_filter.1 hy).2
        have lo : LiveH m (opposite y) := ((C29_consistent hm.careful.reach).opp y ly).1
        obtain ⟨a1, a2, a3⟩ := A.old_h y ly
        obtain ⟨b1, b2, b3⟩ := A.old_h _ lo
        simp only [Prod.mk.injEq] at e
        have : x = y := U x y hx a1 (by rw [b2]; exact e.1.symm) (by rw [a2]; exact e.2.symm)
        subst this
        rcases ih x ly with h | h
        · left
          unfold Mesh.face at *
          rcases a3 with h' | ⟨h', -⟩
          · rw [h']; exact h
          · exact absurd h' h
        · right
          unfold Mesh.face at *
          rcases b3 with h' | ⟨h', -⟩
          · rw [h']; exact h
          · exact absurd h' h
      · left
        have hz : cycPairs vi = ((m.addFace vi).1.fh idx).map (fun h => (((m.addFace vi).1.hd (opposite h)).t, ((m.addFace vi).1.hd h).t)) := by
          have z := List.zip_map' (f := fun h => ((m.addFace vi).1.hd (opposite h)).t) (g := fun h => ((m.addFace vi).1.hd h).t) (l := (m.addFace vi).1.fh idx)
          rw [A.srcs, A.list] at z
          exact z
        rw [hz] at hm'
        obtain ⟨y, hy, e⟩ := List.mem_map.1 hm'
        simp only [Prod.mk.injEq] at e
        have hl : LiveF (m.addFace vi).1 idx := (A.live idx).2 (.inr rfl)
        obtain ⟨ly, fy⟩ := (CC.face_list idx hl).2.2 y hy
        have : x = y := U x y hx ly e.1.symm e.2.symm
        subst this
        rw [fy]; simp
    intro x hx
    rcases O x hx with h | h
    · exact key x hx h
    · have l := (CC.opp x hx).1
      have oo := (CC.opp x hx).2.1
      have := key (opposite x) l (by rw [oo]; exact h)
      rw [oo] at this
      exact this.symm

theorem FromFaces.addFaces : ∀ (fs : List (List Nat)) (m : Mesh P), FromFaces d m → (∀ f ∈ fs, 3 ≤ f.length ∧ f.Nodup ∧ ∀ v ∈ f, LiveV m v) → (Preproc.addFaces m fs).2 = true →
    FromFaces d (Preproc.addFaces m fs).1 := by
  intro fs
  induction fs with
  | nil => intro m h _ _; exact h
  | cons f fs ih =>
    intro m h hg hok
    unfold Preproc.addFaces at hok ⊢
    have G := hg f (by simp)
    have GP : GoodPolygon m f := nodup_good G.1 G.2.1 G.2.2
    cases hr : (m.addFace f).2 with
    | none => simp [hr] at hok
    | some idx =>
      have A := addFace_spec (reachable_wf h.careful.reach) GP idx hr
      simp only [hr, reduceCtorEq, if_false] at hok ⊢
      refine ih _ (.face m f h GP (by rw [hr]; simp)) ?_ hok
      intro g hg'
      have := hg g (by simp [hg'])
      refine ⟨this.1, this.2.1, fun v hv => ?_⟩
      have := this.2.2 v hv
      unfold LiveV at *
      rw [A.nV, A.vRem]; exact this

theorem mergeFaces_from (cs : Mesh P) (off : Nat) : ∀ (is : List Nat) (s : Mesh P × List Nat) (r : Mesh P × List Nat), FromFaces d s.1 → mergeFaces cs off is s = some r →
    (∀ i ∈ is, 3 ≤ (cs.verticesAroundFace i).length ∧ (cs.verticesAroundFace i).Nodup ∧ ∀ v ∈ cs.verticesAroundFace i, LiveV s.1 (v + off)) → FromFaces d r.1 := by
  intro is
  induction is with
  | nil => intro s r h e _; simp only [mergeFaces, Option.some.injEq] at e; rw [← e]; exact h
  | cons i is ih =>
    intro s r h e hg
    unfold mergeFaces at e
    simp only at e
    have G := hg i (by simp)
    have GP : GoodPolygon s.1 ((cs.verticesAroundFace i).map (fun v => v + off)) := by
      refine nodup_good (by simpa using G.1) (G.2.1.map (fun a b hab => by simpa using hab)) ?_
      intro v hv
      obtain ⟨w, hw, rfl⟩ := List.mem_map.1 hv
      exact G.2.2 w hw
    cases hr : (s.1.addFace ((cs.verticesAroundFace i).map (fun v => v + off))).2 with
    | none => rw [hr] at e; simp at e
    | some idx =>
      rw [hr] at e
      simp only [Option.bind_some] at e
      have A := addFace_spec (reachable_wf h.careful.reach) GP idx hr
      refine ih _ r (.face s.1 _ h GP (by rw [hr]; simp)) e ?_
      intro g hg'
      have := hg g (by simp [hg'])
      refine ⟨this.1, this.2.1, fun v hv => ?_⟩
      have := this.2.2 v hv
      unfold LiveV at *
      rw [A.nV, A.vRem]; exact this

theorem mergeVertices_from (cs : Mesh P) : ∀ (l : List Nat) (s : Mesh P × List Nat), FromFaces d s.1 →
    FromFaces d (l.foldl (fun s i => ((s.1.addVertex (cs.pos i)).1, s.2.set (s.1.addVertex (cs.pos i)).2 i)) s).1 := by
  intro l
  induction l with
  | nil => intro s h; exact h
  | cons i l ih =>
    intro s h
    rw [List.foldl_cons]
    exact ih _ (.vertex s.1 _ h)

theorem addVertices_from : ∀ (l : List P) (m : Mesh P), FromFaces d m → FromFaces d (addVertices m l) := by
  intro l
  induction l with
  | nil => intro m h; exact h
  | cons p l ih => intro m h; exact ih _ (.vertex m p h)

end Mcut.Split
