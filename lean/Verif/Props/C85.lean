import Mathlib.Algebra.Order.Ring.Rat
import Mathlib.Analysis.Real.Sqrt
import Verif.Lemmas.C85All
import Verif.Lemmas.C85Super

/-! # C85: the corners of a face are inserted into a triangulation -/
namespace Mcut.Cdt
open Mcut.Geom
variable {K : Type} [Field K] [LinearOrder K] [IsStrictOrderedRing K]

/-- The vertices are strictly inside a super-triangle and different. However the walk chooses the triangles, the insertion of all vertices gives a triangulation of the super-triangle with exactly these vertices; or the insertion stops at a vertex because
the walk has ended in a triangle without this vertex, and the vertices before gave a triangulation. -/
theorem C85_insert_partial {pos : Nat → V2 K} {n : Nat} (h : Placed pos (3 + n)) (walk : St → Nat → Nat) :
    (∃ s, insertVertices pos walk n = some s ∧ Triangulation pos (3 + n) s) ∨
    (insertVertices pos walk n = none ∧ ∃ m s, m < n ∧ insertFirst pos walk n m = some s ∧ Triangulation pos (3 + m) s ∧ ¬Arrives pos s (3 + m) (walk s (3 + m))) := by
  rcases insertFirst_good h walk n (Nat.le_refl n) with ⟨s, e, g, -⟩ | ⟨e, m, s, hm, e', g, ha⟩
  · exact .inl ⟨s, e, g.triangulation h (Nat.le_refl _)⟩
  · exact .inr ⟨e, m, s, hm, e', g.triangulation h (by omega), ha⟩

/-- In a triangulation there is a triangle to arrive in, so there are walks with which all vertices are inserted. -/
theorem C85_possible {pos : Nat → V2 K} {n : Nat} (h : Placed pos (3 + n)) : ∃ walk s, insertVertices pos walk n = some s ∧ Triangulation pos (3 + n) s := by
  classical
  let walk : St → Nat → Nat := fun s v => if h : ∃ k, Arrives pos s v k then h.choose else 0
  refine ⟨walk, ?_⟩
  rcases C85_insert_partial h walk with hs | ⟨-, m, s, hm, -, T, ha⟩
  · exact hs
  · exfalso
    apply ha
    obtain ⟨t, ht, hc⟩ := T.cover (pos (3 + m)) (h.inside (3 + m) (by omega) (by omega))
    obtain ⟨k, e⟩ := List.mem_iff_getElem?.1 ht
    have hex : ∃ k, Arrives pos s (3 + m) k := ⟨k, t, e, hc⟩
    show Arrives pos s (3 + m) (if h : ∃ k, Arrives pos s (3 + m) k then h.choose else 0)
    rw [dif_pos hex]
    exact hex.choose_spec

/-- The super-triangle that the code chooses is such a triangle for each list of at least two different points. -/
theorem C85_super {sq : K → K} (hsq : ∀ x, 0 ≤ x → 0 ≤ sq x ∧ sq x * sq x = x) (big : K) {pts : List (V2 K)} (hn : pts.Nodup) (h2 : 2 ≤ pts.length) (walk : St → Nat → Nat) :
    Placed (places sq big pts) (3 + pts.length) ∧
    ((∃ s, insertVertices (places sq big pts) walk pts.length = some s ∧ Triangulation (places sq big pts) (3 + pts.length) s) ∨
     (insertVertices (places sq big pts) walk pts.length = none ∧ ∃ m s, m < pts.length ∧ insertFirst (places sq big pts) walk pts.length m = some s ∧ Triangulation (places sq big pts) (3 + m) s ∧
       ¬Arrives (places sq big pts) s (3 + m) (walk s (3 + m)))) :=
  ⟨placed_super hsq big hn h2, C85_insert_partial (placed_super hsq big hn h2) walk⟩

/-! ## Examples -/

/-- A square with its centre, in a large triangle; the fourth corner of the square and the centre cause flips, and a sixth point is on an edge. -/
def demoPos (v : Nat) : V2 ℚ := ([⟨-20, -10⟩, ⟨20, -10⟩, ⟨0, 30⟩, ⟨0, 0⟩, ⟨4, 0⟩, ⟨4, 4⟩, ⟨0, 4⟩, ⟨1, 2⟩, ⟨2, 0⟩][v]?).getD ⟨0, 0⟩

/-- A walk that ends in the first triangle that contains the vertex. -/
def demoWalk (s : St) (v : Nat) : Nat := s.tris.findIdx (fun t => decide (locate (demoPos v) (demoPos (t.v 0)) (demoPos (t.v 1)) (demoPos (t.v 2)) ≠ .outside))

theorem demo_placed : Placed demoPos (3 + 6) := by
  refine ⟨by decide +kernel, ?_, ?_⟩
  · have : ∀ v < 9, 3 ≤ v → 0 < orient2d (demoPos 0) (demoPos 1) (demoPos v) ∧ 0 < orient2d (demoPos 1) (demoPos 2) (demoPos v) ∧ 0 < orient2d (demoPos 2) (demoPos 0) (demoPos v) := by decide +kernel
    exact fun v h3 hv => this v hv h3
  · have : ∀ v < 9, 3 ≤ v → ∀ v' < 9, 3 ≤ v' → ((demoPos v).x = (demoPos v').x ∧ (demoPos v).y = (demoPos v').y) → v = v' := by decide +kernel
    intro v v' h3 h3' hv hv' he
    exact this v hv h3 v' hv' h3' (by rw [he]; exact ⟨rfl, rfl⟩)

theorem C85_demo : ∃ s, insertVertices demoPos demoWalk 6 = some s ∧ Triangulation demoPos 9 s ∧ s.tris.length = 13 := by
  have hs : (insertVertices demoPos demoWalk 6).isSome = true := by decide +kernel
  rcases C85_insert_partial demo_placed demoWalk with ⟨s, e, T⟩ | ⟨e, -⟩
  · exact ⟨s, e, T, T.count⟩
  · rw [e] at hs; cases hs

/-- Real numbers have the square roots. -/
theorem C85_super_demo : Placed (places Real.sqrt 1000 [⟨0, 0⟩, ⟨4, 0⟩, ⟨4, 4⟩, ⟨0, 4⟩]) 7 := by
  refine (C85_super (fun x hx => ⟨Real.sqrt_nonneg x, Real.mul_self_sqrt hx⟩) 1000 (pts := [⟨0, 0⟩, ⟨4, 0⟩, ⟨4, 4⟩, ⟨0, 4⟩]) ?_ (by decide) (fun _ _ => 0)).1
  simp [V2.ext_iff]

end Mcut.Cdt
