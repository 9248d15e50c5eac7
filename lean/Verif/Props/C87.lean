import Verif.Lemmas.C87Tiles
import Verif.Props.C86

/-! # C87: the triangles of a face are the face -/
namespace Mcut.Cdt
open Mcut.Geom
variable {K : Type} [Field K] [LinearOrder K] [IsStrictOrderedRing K]

/-- If the edges of a face with `n` corners are in the triangulation and are the fixed edges, then `n - 2` triangles are left after the outside is erased, and they are the face without gaps and overlaps. -/
theorem C87_tiles {pos : Nat → V2 K} {n : Nat} (three : 3 ≤ n) (h : Placed pos (n + 3)) {s : St} (T : Triangulation pos (n + 3) s) {fixed : List (Nat × Nat)} (hf : FixedEdges (n + 3) fixed) (O : Outline s.tris n fixed) :
    ∃ d, eraseOuter s fixed = some d ∧ Tiles (fun v => pos (v + 3)) n d.tris := by
  obtain ⟨old, d, e, E, -⟩ := C86_erase h T hf
  exact ⟨d, e, tiles_of h T three O hf E⟩

/-- What `insert_edges` fixes, if it does not have to force an edge into the triangulation: the edges of the face. -/
theorem C87_insert_partial {pos : Nat → V2 K} {n : Nat} (three : 3 ≤ n) {s : St} (T : Triangulation pos (n + 3) s) {fixed : List (Nat × Nat)} (h : insertEdges s n = some fixed) :
    FixedEdges (n + 3) fixed ∧ Outline s.tris n fixed := by
  have O := insertEdges_outlined T three h
  exact ⟨O.fixedEdges h, O.outline⟩

/-- `insert_edge` refuses nothing but edges that are not in the triangulation. -/
theorem C87_insert_succeeds_partial {pos : Nat → V2 K} {n : Nat} (three : 3 ≤ n) {s : St} (T : Triangulation pos (n + 3) s) (there : ∀ i < n, ∃ t ∈ s.tris, ∃ j, edge (t.v j) (t.v (j + 1)) = edge (i + 3) ((i + 1) % n + 3)) :
    ∃ fixed, insertEdges s n = some fixed := by
  have one : ∀ (f : List (Nat × Nat)), ∀ i < n, ∃ f', insertEdge s f (edge (i + 3) ((i + 1) % n + 3)) = some f' := by
    intro f i hi
    obtain ⟨t, ht, j, e⟩ := there i hi
    have hne := next_ne three hi
    obtain ⟨e1, he1⟩ : ∃ e1, e1 = edge (i + 3) ((i + 1) % n + 3) := ⟨_, rfl⟩
    rw [← he1] at e ⊢
    have h12 : e1.1 ≠ e1.2 := by rw [he1]; unfold edge; split <;> dsimp only <;> omega
    have hv : ∃ i1 i2, t.v i1 = e1.1 ∧ t.v i2 = e1.2 := by
      rw [← e]
      unfold edge
      split
      · exact ⟨_, _, rfl, rfl⟩
      · exact ⟨_, _, rfl, rfl⟩
    obtain ⟨i1, i2, h1, h2⟩ := hv
    obtain ⟨k, hk⟩ := List.mem_iff_getElem?.1 ht
    have lst : ∀ i, ∃ l, s.vt[t.v i]? = some l ∧ k ∈ l := by
      intro i
      have : t.v i < s.vt.length := lt_of_lt_of_le ((T.vertices _).2 ⟨t, ht, i, rfl⟩) T.listed
      have e := List.getElem?_eq_getElem this
      exact ⟨_, e, ((T.lists _ _ e).2 k).2 ⟨t, i, hk, rfl⟩⟩
    obtain ⟨l1, el1, m1⟩ := lst i1
    obtain ⟨l2, el2, m2⟩ := lst i2
    rw [h1] at el1
    rw [h2] at el2
    unfold insertEdge shareEdge
    rw [if_neg h12, el1, Option.bind_some, el2, Option.map_some, Option.bind_some, if_pos]
    · exact ⟨_, rfl⟩
    · rw [List.any_eq_true]
      exact ⟨k, m1, by simpa using m2⟩
  have all : ∀ (l : List Nat) (f : List (Nat × Nat)), (∀ i ∈ l, i < n) → ∃ f', l.foldlM (fun fixed i => insertEdge s fixed (edge (i + 3) ((i + 1) % n + 3))) f = some f' := by
    intro l
    induction l with
    | nil => intro f _; exact ⟨f, rfl⟩
    | cons i l ih =>
      intro f hl
      obtain ⟨f1, h1⟩ := one f i (hl i (by simp))
      obtain ⟨f2, h2⟩ := ih f1 (fun j hj => hl j (by simp [hj]))
      exact ⟨f2, by rw [List.foldlM_cons, h1]; exact h2⟩
  exact all _ _ (fun i hi => List.mem_range.1 hi)

/-! ## Example -/

/-- The L-shaped face: four triangles, the area is 12. -/
theorem C87_demo : ∃ s fixed d, elSt = some s ∧ insertEdges s 6 = some fixed ∧ eraseOuter s fixed = some d ∧ Tiles (fun v => elPos (v + 3)) 6 d.tris ∧ d.tris.length = 4 ∧ shoelace (fun v => elPos (v + 3)) 6 = 24 ∧
    turns (fun v => elPos (v + 3)) 6 ⟨1, 3⟩ = 1 ∧ turns (fun v => elPos (v + 3)) 6 ⟨3, 3⟩ = 0 := by
  obtain ⟨s, fixed, -, -, es, ef, F, -⟩ := C86_demo
  obtain ⟨s', es', T⟩ := el_triangulation
  rw [es] at es'
  obtain rfl := Option.some.inj es'
  obtain ⟨F', O⟩ := C87_insert_partial (pos := elPos) (by omega) T ef
  obtain ⟨d, ed, tl⟩ := C87_tiles (by omega) el_placed T F' O
  refine ⟨s, fixed, d, es, ef, ed, tl, ?_, by decide +kernel, by decide +kernel, by decide +kernel⟩
  have := tl.count
  omega

end Mcut.Cdt
