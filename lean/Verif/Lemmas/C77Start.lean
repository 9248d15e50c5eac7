import Verif.Lemmas.C77Env
import Verif.Lemmas.C71Search
import Verif.Spec.C77

/-! Lemmas for C77: a walk can begin in every polygon of a triangle that has an edge without points. -/
namespace Mcut.Split
open Mcut.Hmesh Mcut.Extract Mcut.Registry Mcut.CutEdges Mcut.Boundary Mcut.Trace
variable {P : Type} {d : P} {ps : Mesh P} {base : Nat} {pts : Nat → List Nat} {sort : Nat → Nat → List Nat → List Nat} {edges : List Nat} {c : CutEdges.St P} {st : Boundary.St P}
  {pieces : Nat → List Nat} {reg : List (Nat × Nat)} {smV smF n : Nat} {o : Out} {T : Nat → List Nat} {poly : Nat → List (List Nat)}

theorem Facts.hasStart (F : Facts d ps smV smF base pts sort edges c st pieces reg n o T poly)
    (tri : ∀ f, f < smF → c.faceEdges f ≠ [] → (ps.fh f).length = 3 ∧ ∃ h ∈ ps.fh f, pts (edgeOf h) = []) {p : List Nat} (hp : p ∈ o.polygons.take o.smCount) : HasStart st.m0 base p := by
  obtain ⟨f, hf, hpf⟩ := F.poly_in hp
  have hfn : f < n := by have := F.le; omega
  have hl := (F.live f).1 hfn
  have cy := (F.round hp).cyclic
  obtain ⟨x, hx, hxo⟩ := F.touch f hf p hpf
  have old : ∀ h ∈ ps.fh f, ∀ z ∈ side ps st.m0 pts sort pieces h, (src st.m0 z < base → src st.m0 z = src ps h) ∧ (st.m0.target z < base → st.m0.target z = ps.target h) := by
    intro h hh z hz
    exact F.old_part ((F.G.part_iff (F.G.live hl hh).1).2 hz)
  by_cases hc : c.faceEdges f = []
  · obtain ⟨h, hh, hxs⟩ := List.mem_flatMap.1 hxo
    have hp' := (F.G.part_iff (F.G.live hl hh).1).2 hxs
    have no : ∀ v, v ∉ pts (edgeOf h) := by
      intro v hv
      obtain ⟨a, ha, -⟩ := F.X.ends _ f v (F.G.live hl hh).2.1 (F.G.onEdge hl hh) hv
      rw [hc] at ha; cases ha
    obtain ⟨n1, n2⟩ := F.G.new_part hp'
    refine .inl ⟨x, hx, ?_, ?_⟩
    · by_contra h'; exact no _ (n1 (by omega))
    · by_contra h'; exact no _ (n2 (by omega))
  · obtain ⟨h3, h0, hh0, hno⟩ := tri f hf hc
    -- the part of the edge without points
    obtain ⟨q, q1, q2⟩ := F.G.path (F.G.live hl hh0).1
    rw [hno] at q1
    obtain rfl := q1.eq_nil
    obtain ⟨-, s2, s3, -⟩ := F.G.sides (F.G.live hl hh0).1
    rw [q2] at s2 s3
    simp only [List.nil_append, List.dropLast_cons_cons, List.dropLast_singleton, List.tail_cons] at s2 s3
    obtain ⟨y, hy⟩ : ∃ y, side ps st.m0 pts sort pieces h0 = [y] := by
      match hz : side ps st.m0 pts sort pieces h0 with
      | [] => rw [hz] at s2; simp at s2
      | [y] => exact ⟨y, rfl⟩
      | _ :: _ :: _ => rw [hz] at s2; simp at s2
    rw [hy] at s2 s3
    simp only [List.map_cons, List.map_nil, List.cons.injEq, and_true] at s2 s3
    obtain ⟨o1, o2⟩ := F.G.old hl hh0
    by_cases hyp : y ∈ p
    · exact .inl ⟨y, hyp, by rw [s2]; exact o1, by rw [s3]; exact o2⟩
    · right
      have kind : ∀ g ∈ p, src st.m0 g < base ∨ st.m0.target g < base → g ∈ outline ps st.m0 pts sort pieces f := by
        intro g hg hb
        rcases (F.sub f hfn).kind g (List.mem_flatten.2 ⟨p, hpf, hg⟩) with h | h
        · exact h
        · have := F.cut_ends (h := g) (F.G.cutLt f _ h); omega
      have hyo : y ∈ outline ps st.m0 pts sort pieces f := List.mem_flatMap.2 ⟨h0, hh0, by rw [hy]; simp⟩
      have corner : ∀ g ∈ p, st.m0.target g < base → ∃ h ∈ ps.fh f, g ∈ side ps st.m0 pts sort pieces h ∧ st.m0.target g = ps.target h ∧ h ≠ h0 ∧ ps.target h ≠ src ps h0 := by
        intro g hg hb
        have hgo := kind g hg (.inr hb)
        obtain ⟨h, hh, hgs⟩ := List.mem_flatMap.1 hgo
        have ht := (old h hh g hgs).2 hb
        refine ⟨h, hh, hgs, ht, ?_, ?_⟩
        · rintro rfl
          rw [hy, List.mem_singleton] at hgs
          exact hyp (hgs ▸ hg)
        · intro e
          obtain ⟨z, fz, ez⟩ := follows_next cy hg
          have hzo := kind z fz.mem.2 (.inl (by rw [← ez]; exact hb))
          have : z = y := List.inj_on_of_nodup_map (F.G.sources hl) hzo hyo (by rw [s2, ← ez, ht, e])
          exact hyp (this ▸ fz.mem.2)
      -- there is only one such edge
      have single : ∀ h ∈ ps.fh f, ∀ h' ∈ ps.fh f, h ≠ h0 → ps.target h ≠ src ps h0 → h' ≠ h0 → ps.target h' ≠ src ps h0 → h = h' := by
        obtain ⟨r, -⟩ := F.G.ring_ps hl
        unfold Ringed at r
        match hz : ps.fh f, h3 with
        | [a, b, e], _ =>
          rw [hz] at r hh0
          simp only [List.map_cons, List.map_nil, List.rotate_cons_succ, List.rotate_zero, List.cons_append, List.nil_append, List.cons.injEq, and_true] at r
          obtain ⟨r1, r2, r3⟩ := r
          simp only [List.mem_cons, List.not_mem_nil, or_false] at hh0 ⊢
          intro h hh h' hh' a1 a2 a3 a4
          rcases hh0 with rfl | rfl | rfl <;> rcases hh with rfl | rfl | rfl <;> rcases hh' with rfl | rfl | rfl <;> first | rfl | (exfalso; simp_all)
      have ex : ∃ g ∈ p, st.m0.target g < base := by
        obtain ⟨h, hh, hxs⟩ := List.mem_flatMap.1 hxo
        rcases F.one_end ((F.G.part_iff (F.G.live hl hh).1).2 hxs) (F.G.live hl hh).2.2 hfn hh with h' | h'
        · obtain ⟨z, fz, ez⟩ := follows_prev cy hx
          exact ⟨z, fz.mem.1, by rw [ez]; exact h'⟩
        · exact ⟨x, hx, h'⟩
      obtain ⟨g, hg, hb⟩ := ex
      refine ⟨g, hg, hb, fun g' hg' hb' => ?_⟩
      obtain ⟨h, e1, e2, e3, e4, e5⟩ := corner g hg hb
      obtain ⟨h', i1, i2, i3, i4, i5⟩ := corner g' hg' hb'
      obtain rfl := single h e1 h' i1 e4 e5 i4 i5
      exact List.inj_on_of_nodup_map (F.G.targets hl) (kind g' hg' (.inr hb')) (kind g hg (.inr hb)) (i3.trans e3.symm)

end Mcut.Split
