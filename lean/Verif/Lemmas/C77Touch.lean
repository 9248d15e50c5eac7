import Verif.Lemmas.C76Cross
import Verif.Lemmas.C74

/-! Lemmas for C77: the polygons of a face touch its boundary. -/
namespace Mcut.Trace
open Mcut.Hmesh Mcut.Registry Mcut.CutEdges Mcut.Boundary
variable {P : Type} {d : P} {ps : Mesh P} {base : Nat} {pts : Nat → List Nat} {sort : Nat → Nat → List Nat → List Nat} {edges : List Nat} {c : CutEdges.St P} {st : Boundary.St P}
  {pieces : Nat → List Nat} {reg : List (Nat × Nat)}

theorem Given.touches (G : Given d ps base pts sort edges c st pieces reg) {part : (Nat → Bool) → List Nat → List Nat × List Nat} (hp : IsPartition part) {f : Nat} (hf : LiveF ps f)
    (one : SimpleEdges ps) (few : c.faceEdges f ≠ [] → ∀ g ∈ ps.fh f, (pts (edgeOf g)).length ≤ 1)
    (anch : ∀ x, edgeOf x ∈ c.faceEdges f → Anchored ps pts c st.m0 f x) {l : List (List Nat)} (hl : facePolygons ps st base reg part f = some l) {p : List Nat} (hpl : p ∈ l) :
    ∃ x ∈ p, x ∈ outline ps st.m0 pts sort pieces f := by
  have S := G.sub hp hf hl
  have R := S.round p hpl
  obtain ⟨x, hx⟩ : ∃ x, x ∈ p := by
    cases p with
    | nil => have := R.three; simp at this
    | cons a _ => exact ⟨a, List.mem_cons_self⟩
  by_cases hc : c.faceEdges f = []
  · rcases S.kind x (List.mem_flatten.2 ⟨p, hpl, hx⟩) with h | h
    · exact ⟨x, hx, h⟩
    · rw [hc] at h; cases h
  · unfold facePolygons at hl
    rw [if_pos ((G.entry_iff hf).2 hc)] at hl
    obtain ⟨l', E, I, h1, h2, h3, A, Q, rest, rfl, k2, k3, k4, k5⟩ := G.cut_few hp hf hc one (few hc)
    rw [h1] at hl
    obtain rfl := Option.some.inj hl
    have hIm : ∀ h, h ∈ I ↔ edgeOf h ∈ c.faceEdges f := fun h => by rw [h3.mem_iff, mem_both]
    have hEm : ∀ h, h ∈ E ↔ h ∈ outline ps st.m0 pts sort pieces f := fun h => h2.perm.mem_iff
    have L0 := G.laid hf h2 (List.Perm.refl _)
    have hI0 : ∀ h, h ∈ (c.faceEdges f).flatMap (fun e => [halfedgeOf e 0, halfedgeOf e 1]) ↔ h ∈ I := fun h => h3.mem_iff.symm
    have flip : ∀ h ∈ I, src st.m0 (opposite h) = st.m0.target h ∧ st.m0.target (opposite h) = src st.m0 h := fun h hh => L0.flip h ((hI0 h).2 hh)
    have live : ∀ h ∈ I, LiveH st.m0 h := fun h hh => ((reachable_wf G.divided.valid).liveH_iff h).2 (G.cut_kept ((hIm h).1 hh)).1
    have norest : ∀ h, h ∉ rest := fun h hh => (k5 h hh).2 (G.linked hf hEm hIm (anch h ((hIm h).1 (k5 h hh).1)))
    have hpA : p ∈ A := by
      rcases List.mem_append.1 hpl with h | h
      · exact h
      · exact absurd (k4.subset (List.mem_flatten.2 ⟨p, h, hx⟩)) (norest x)
    obtain ⟨-, cy⟩ := k3 p hpA
    by_contra hcon
    have allI : ∀ y ∈ p, y ∈ I := by
      intro y hy
      rcases cyclic_sub cy y hy with h | h
      · exact absurd ⟨y, hy, (hEm y).1 h⟩ hcon
      · exact h
    obtain ⟨b, hbE, r⟩ := G.linked hf hEm hIm (anch x ((hIm x).1 (allI x hx)))
    have noB : ∀ z ∈ p, ¬ ∃ y ∈ E, src st.m0 y = st.m0.target z := by
      rintro z hz hy
      obtain ⟨z', f1, t⟩ := follows_next cy hz
      exact hcon ⟨z', f1.mem.2, (hEm z').1 (t.outOf (allI z hz) hy)⟩
    have reach : ∀ w, Relation.ReflTransGen (fun v w => ∃ g ∈ I, src st.m0 g = v ∧ st.m0.target g = w) (st.m0.target x) w → ∃ z ∈ p, st.m0.target z = w := by
      intro w r
      induction r with
      | refl => exact ⟨x, hx, rfl⟩
      | tail _ hg ih =>
        obtain ⟨z, hz, ez⟩ := ih
        obtain ⟨g, hg, e1, rfl⟩ := hg
        obtain ⟨z', f1, t⟩ := follows_next cy hz
        have zI := allI z hz
        have z'I := allI z' f1.mem.2
        by_cases hgo : g = opposite z
        · obtain ⟨q, fq, tq⟩ := follows_prev cy hz
          exact ⟨q, fq.mem.1, by rw [hgo, (flip z zI).2]; exact tq.goesOn.symm⟩
        · have hst := t.straight zI ⟨g, hg, e1.trans ez.symm, hgo⟩
          have en : ∀ y ∈ I, EndsIn c.m0 (edgeOf y) (src st.m0 y) ∧ EndsIn c.m0 (edgeOf y) (st.m0.target y) := fun y hy => joins_endsIn (G.joins ((hIm y).1 hy))
          have same : ∀ a b, edgeOf a = edgeOf b → a = b ∨ a = opposite b := by intro a b h; unfold edgeOf at h; unfold opposite; split <;> omega
          have ne : ∀ y ∈ I, src st.m0 y ≠ st.m0.target y := fun y hy => (src_of G.divided.valid (live y hy)).2.1
          rcases G.two f (st.m0.target z) _ ((hIm z).1 zI) _ ((hIm z').1 z'I) _ ((hIm g).1 hg) (en z zI).2 (by rw [← t.goesOn]; exact (en z' z'I).1) (by rw [ez, ← e1]; exact (en g hg).1) with h | h | h
          · rcases same z' z h.symm with e | e
            · subst e; exact absurd t.goesOn (ne z' zI)
            · exact absurd e hst
          · rcases same g z' h.symm with e | e
            · rw [e]; exact ⟨z', f1.mem.2, rfl⟩
            · exfalso
              have h1 : src st.m0 g = st.m0.target z' := by rw [e]; exact (flip z' z'I).1
              exact ne z' z'I (t.goesOn.trans (ez.trans (e1.symm.trans h1)))
          · rcases same g z h.symm with e | e
            · exfalso
              subst e
              exact ne g zI (e1.trans ez.symm)
            · exact absurd e hgo
    obtain ⟨z, hz, ez⟩ := reach _ r
    exact noB z hz ⟨b, hbE, ez.symm⟩

end Mcut.Trace
