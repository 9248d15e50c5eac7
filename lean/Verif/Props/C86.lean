import Verif.Lemmas.C86Topology
import Verif.Props.C85

/-! # C86: erasing the triangles outside of the fixed edges -/
namespace Mcut.Cdt
open Mcut.Geom
variable {K : Type} [Field K] [LinearOrder K] [IsStrictOrderedRing K]

/-- `erase_outer_triangles` terminates; it removes exactly the triangles that can be reached from the super-triangle without crossing a fixed edge, renumbers the others consistently, and the check of the topology that follows passes. -/
theorem C86_erase {pos : Nat → V2 K} {N : Nat} (h : Placed pos N) {s : St} (T : Triangulation pos N s) {fixed : List (Nat × Nat)} (hf : FixedEdges N fixed) :
    ∃ old d, eraseOuter s fixed = some d ∧ Erased pos N fixed s old d ∧ topology d (N - 3) = some true := by
  obtain ⟨old, d, e, E, hv⟩ := eraseOuter_spec h T hf
  exact ⟨old, d, e, E, topology_true hv E.vertices (fun j j' u i h1 h2 => by
    obtain ⟨u', l, h3, h4, -⟩ := E.neighbours j j' u i h1 h2
    exact ⟨u', l, h3, h4⟩)⟩

/-! ## Examples -/

/-- An L-shaped face, in the order of its corners. -/
def elPos (v : Nat) : V2 ℚ := ([⟨-20, -10⟩, ⟨20, -10⟩, ⟨0, 30⟩, ⟨0, 0⟩, ⟨4, 0⟩, ⟨4, 2⟩, ⟨2, 2⟩, ⟨2, 4⟩, ⟨0, 4⟩][v]?).getD ⟨0, 0⟩

def elWalk (s : St) (v : Nat) : Nat := s.tris.findIdx (fun t => decide (locate (elPos v) (elPos (t.v 0)) (elPos (t.v 1)) (elPos (t.v 2)) ≠ .outside))

theorem el_placed : Placed elPos (3 + 6) := by
  refine ⟨by decide +kernel, ?_, ?_⟩
  · have : ∀ v < 9, 3 ≤ v → 0 < orient2d (elPos 0) (elPos 1) (elPos v) ∧ 0 < orient2d (elPos 1) (elPos 2) (elPos v) ∧ 0 < orient2d (elPos 2) (elPos 0) (elPos v) := by decide +kernel
    exact fun v h3 hv => this v hv h3
  · have : ∀ v < 9, 3 ≤ v → ∀ v' < 9, 3 ≤ v' → ((elPos v).x = (elPos v').x ∧ (elPos v).y = (elPos v').y) → v = v' := by decide +kernel
    intro v v' h3 h3' hv hv' he
    exact this v hv h3 v' hv' h3' (by rw [he]; exact ⟨rfl, rfl⟩)

/-- The state after all corners are inserted. -/
def elSt : Option St := insertVertices elPos elWalk 6

theorem el_triangulation : ∃ s, elSt = some s ∧ Triangulation elPos 9 s := by
  have hs : elSt.isSome = true := by decide +kernel
  rcases C85_insert_partial el_placed elWalk with h | ⟨e, -⟩
  · exact h
  · unfold elSt at hs; rw [e] at hs; cases hs

/-- All six edges of the face are in the triangulation and become fixed; four triangles of thirteen are left. -/
theorem C86_demo : ∃ s fixed old d, elSt = some s ∧ insertEdges s 6 = some fixed ∧ FixedEdges 9 fixed ∧ eraseOuter s fixed = some d ∧ Erased elPos 9 fixed s old d ∧ topology d 6 = some true ∧ d.tris.length = 4 := by
  obtain ⟨s, es, T⟩ := el_triangulation
  have h1 : ((elSt.bind (fun s => insertEdges s 6)).map (fun f => decide (f = [(3, 8), (7, 8), (6, 7), (5, 6), (4, 5), (3, 4)]))) = some true := by decide +kernel
  rw [es, Option.bind_some] at h1
  obtain ⟨fixed, hf, hd⟩ := Option.map_eq_some_iff.1 h1
  have hfx := of_decide_eq_true hd
  have F : FixedEdges 9 fixed := by rw [hfx]; unfold FixedEdges; decide
  have h2 : (elSt.bind (fun s => (eraseOuter s [(3, 8), (7, 8), (6, 7), (5, 6), (4, 5), (3, 4)]).map (fun d => d.tris.length))) = some 4 := by decide +kernel
  rw [es, Option.bind_some, ← hfx] at h2
  obtain ⟨old, d, e, E, t⟩ := C86_erase el_placed T F
  rw [e] at h2
  exact ⟨s, fixed, old, d, es, hf, F, e, E, t, by simpa using h2⟩

end Mcut.Cdt
