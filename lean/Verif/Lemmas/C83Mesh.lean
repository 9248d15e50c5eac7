import Verif.Model.Stitch
import Verif.Lemmas.C77Mesh

/-! Lemmas for C83: meshes that grow, without double edges. -/
namespace Mcut.Stitch
open Mcut.Hmesh Mcut.Extract
open Mcut.Split (Plain edgeOf_opposite opposite_opposite opposite_ne half_cases opp0 opp1)
open Mcut.Trace (src src_of)
variable {P : Type} {d : P}

/-- There is at most one halfedge from a vertex to another. -/
def Single (m : Mesh P) : Prop := ∀ a b, edgeOf a < m.nE → edgeOf b < m.nE → src m a = src m b → m.target a = m.target b → a = b

/-- Mesh `m'` has all that `m` has. -/
structure Grown (m m' : Mesh P) : Prop where
  nV : m.nV ≤ m'.nV
  nE : m.nE ≤ m'.nE
  pos : ∀ v, v < m.nV → m'.pos v = m.pos v
  ends : ∀ h, edgeOf h < m.nE → src m' h = src m h ∧ m'.target h = m.target h

theorem Grown.refl (m : Mesh P) : Grown m m := ⟨Nat.le_refl _, Nat.le_refl _, fun _ _ => rfl, fun _ _ => ⟨rfl, rfl⟩⟩

theorem Grown.trans {a b c : Mesh P} (g : Grown a b) (h : Grown b c) : Grown a c := by
  have h1 := g.nV; have h2 := h.nV; have h3 := g.nE; have h4 := h.nE
  refine ⟨by omega, by omega, fun v hv => by rw [h.pos v (by omega), g.pos v hv], fun x hx => ?_⟩
  rw [(h.ends x (by omega)).1, (h.ends x (by omega)).2]
  exact g.ends x hx

/-- A vertex is added. -/
theorem grown_vertex {m : Mesh P} (p : Plain d m) (s : Single m) (x : P) :
    (m.addVertex x).2 = m.nV ∧ Plain d (m.addVertex x).1 ∧ Single (m.addVertex x).1 ∧ Grown m (m.addVertex x).1 ∧ (m.addVertex x).1.nV = m.nV + 1 ∧ (m.addVertex x).1.pos m.nV = x := by
  obtain ⟨a1, a2, a3, a4, a5, a6, a7⟩ := p.addVertex x
  refine ⟨a1, a2, ?_, ⟨by omega, by omega, a5, fun h _ => ⟨(a7 h).2, (a7 h).1⟩⟩, a3, a4⟩
  intro a b ha hb h1 h2
  rw [(a7 a).2, (a7 b).2] at h1
  rw [(a7 a).1, (a7 b).1] at h2
  exact s a b (by omega) (by omega) h1 h2

/-- The halfedge from `a` to `b` is found or made. -/
theorem halfOf_spec {m : Mesh P} (p : Plain d m) (s : Single m) {a b : Nat} (ha : a < m.nV) (hb : b < m.nV) (hne : a ≠ b) :
    ∃ m' g, halfOf m a b = (m', g) ∧ Plain d m' ∧ Single m' ∧ Grown m m' ∧ m'.nV = m.nV ∧ edgeOf g < m'.nE ∧ src m' g = a ∧ m'.target g = b := by
  have W := reachable_wf p.reach
  unfold halfOf
  cases hh : m.halfedge a b true with
  | some g =>
    obtain ⟨h1, h2, h3⟩ := halfedge_some W a b hne g hh
    have hl := (p.liveH g).1 h1
    obtain ⟨e1, e2, e3, -, -⟩ := p.ends hl
    have hs : src m g = a := by rw [e1]; exact h2
    have ht : m.target g = b := h3
    have key : (if src m (halfedgeOf (edgeOf g) 0) = a then halfedgeOf (edgeOf g) 0 else halfedgeOf (edgeOf g) 1) = g := by
      rcases half_cases g with h' | h'
      · rw [← h', if_pos hs]
      · have h0 : halfedgeOf (edgeOf g) 0 = opposite g := by rw [← opp1, ← h']
        rw [h0, e3, if_neg (by rw [ht]; exact Ne.symm hne)]; exact h'.symm
    refine ⟨m, g, by simp only [key], p, s, Grown.refl m, rfl, hl, hs, ht⟩
  | none =>
    have hn := (halfedge_none W a b hne).1 hh
    obtain ⟨a1, a2, a3, a4, a5, a6, a7, a8, a9, a10⟩ := p.addEdge ha hb hne
    have none' : ∀ x, edgeOf x < m.nE → src m x = a → m.target x ≠ b := by
      intro x hx hs
      have hlx := (p.liveH x).2 hx
      refine hn x hlx ?_ 
      have := (src_of p.reach hlx)
      unfold src at hs
      cases hsx : m.source x with
      | none =>
        exfalso
        have := ((C29_consistent p.reach).opp x hlx).2.2
        unfold Mesh.source at hsx
        rcases ho : (m.hd x).o with _ | o'
        · have h5 := W.half x hlx
          rw [ho] at h5
          simp at h5
        · rw [ho] at hsx; cases hsx
      | some y => rw [hsx] at hs; simp only [Option.getD_some] at hs; rw [hs]
    refine ⟨(m.addEdge a b).1, (m.addEdge a b).2, rfl, a2, ?_, ⟨by omega, by omega, fun v _ => by rw [a4], fun h hh => ⟨(a6 h hh).2, (a6 h hh).1⟩⟩, a3, ?_, ?_, ?_⟩
    · have new : ∀ x, edgeOf x < (m.addEdge a b).1.nE → edgeOf x < m.nE ∨ x = 2 * m.nE ∨ x = opposite (2 * m.nE) := by
        intro x hx
        rw [a5] at hx
        unfold edgeOf opposite at *
        split <;> omega
      -- no old edge has the same ends
      have noRev : ∀ x, edgeOf x < m.nE → src m x = b → m.target x ≠ a := by
        intro x hx hs ht
        have e := p.ends hx
        exact none' (opposite x) (by rw [edgeOf_opposite]; exact hx) (by rw [e.2.2.1]; exact ht) (by rw [← e.1]; exact hs)
      intro x y hx hy h1 h2
      rcases new x hx with hx | rfl | rfl <;> rcases new y hy with hy | rfl | rfl
      · rw [(a6 x hx).2, (a6 y hy).2] at h1
        rw [(a6 x hx).1, (a6 y hy).1] at h2
        exact s x y hx hy h1 h2
      · rw [(a6 x hx).2, a7] at h1
        rw [(a6 x hx).1, a8] at h2
        exact absurd h2 (none' x hx h1)
      · rw [(a6 x hx).2, a9] at h1
        rw [(a6 x hx).1, a10] at h2
        exact absurd h2 (noRev x hx h1)
      · rw [(a6 y hy).2, a7] at h1
        rw [(a6 y hy).1, a8] at h2
        exact absurd h2.symm (none' y hy h1.symm)
      · rfl
      · rw [a7, a9] at h1; exact absurd h1 hne
      · rw [(a6 y hy).2, a9] at h1
        rw [(a6 y hy).1, a10] at h2
        exact absurd h2.symm (noRev y hy h1.symm)
      · rw [a7, a9] at h1; exact absurd h1.symm hne
      · rfl
    · rw [a1, a5]; unfold edgeOf; omega
    · rw [a1]; exact a7
    · rw [a1]; exact a8

end Mcut.Stitch
