import Verif.Lemmas.C71All
import Verif.Lemmas.C70All
import Verif.Props.C61
import Mathlib.Data.List.Rotate

/-! Lemmas for C71: the boundary of a face. -/
namespace Mcut.Trace
open Mcut.Hmesh Mcut.Registry Mcut.CutEdges Mcut.Boundary
variable {P : Type}

/-- The halfedge of edge `e` that leaves vertex `v`. -/
def out (m : Mesh P) (v e : Nat) : Nat := if src m (halfedgeOf e 0) = v then halfedgeOf e 0 else halfedgeOf e 1

theorem src_of {d : P} {m : Mesh P} (hr : Reachable d m) {h : Nat} (hl : LiveH m h) : src m h = m.target (opposite h) ∧ src m h ≠ m.target h ∧ src m (opposite h) = m.target h ∧
    opposite (opposite h) = h ∧ LiveH m (opposite h) := by
  have C := C29_consistent hr
  obtain ⟨h1, h2, -, -, -, h6, -, h8⟩ := C.opp h hl
  have h9 := (C.opp _ h1).2.2.2.2.2.1
  rw [h2] at h9
  refine ⟨by unfold src; rw [h6]; rfl, ?_, by unfold src; rw [h9]; rfl, h2, h1⟩
  unfold src; rw [h6] at h8 ⊢
  intro h; exact h8 (by rw [← h]; rfl)

theorem live_half {d : P} {m : Mesh P} (hr : Reachable d m) {e : Nat} (he : LiveE m e) (i : Nat) (hi : i < 2) : LiveH m (halfedgeOf e i) := by
  rw [(reachable_wf hr).liveH_iff]; unfold halfedgeOf; rwa [show (e * 2 + i) / 2 = e by omega]

theorem out_spec {d : P} {m : Mesh P} (hr : Reachable d m) {e v w : Nat} (he : LiveE m e) (hj : Joins m e v w) :
    src m (out m v e) = v ∧ m.target (out m v e) = w ∧ edgeOf (out m v e) = e ∧ LiveH m (out m v e) ∧ v ≠ w ∧ out m w e = opposite (out m v e) := by
  have o0 : opposite (halfedgeOf e 0) = halfedgeOf e 1 := by unfold opposite halfedgeOf; rw [if_pos (by omega)]
  have o1 : opposite (halfedgeOf e 1) = halfedgeOf e 0 := by unfold opposite halfedgeOf; rw [if_neg (by omega)]; omega
  have l0 := live_half hr he 0 (by omega)
  have l1 := live_half hr he 1 (by omega)
  obtain ⟨a1, a2, a3, -⟩ := src_of hr l0
  obtain ⟨b1, b2, b3, -⟩ := src_of hr l1
  rw [o0] at a1 a3
  rw [o1] at b1 b3
  have e0 : edgeOf (halfedgeOf e 0) = e := by unfold edgeOf halfedgeOf; omega
  have e1 : edgeOf (halfedgeOf e 1) = e := by unfold edgeOf halfedgeOf; omega
  have t0 : m.target (halfedgeOf e 0) = m.edgeVertex e 0 := rfl
  have t1 : m.target (halfedgeOf e 1) = m.edgeVertex e 1 := rfl
  unfold out
  rcases hj with ⟨h1, h2⟩ | ⟨h1, h2⟩
  · have hvw : v ≠ w := by rw [← h1, ← h2, ← t0, ← t1, ← a1]; exact fun h => a2 h.symm
    rw [if_neg (by rw [a1, t1, h2]; exact fun h => hvw h.symm), if_pos (by rw [a1, t1, h2])]
    exact ⟨by rw [b1, t0, h1], by rw [t1, h2], e1, l1, hvw, o1.symm⟩
  · have hvw : v ≠ w := by rw [← h1, ← h2, ← t0, ← t1, ← a1]; exact fun h => a2 h
    rw [if_pos (by rw [a1, t1, h2]), if_neg (by rw [a1, t1, h2]; exact hvw)]
    exact ⟨by rw [a1, t1, h2], by rw [t0, h1], e0, l0, hvw, o0.symm⟩

theorem leads_cons {m : Mesh P} {v w : Nat} {vs : List Nat} {e : Nat} {es : List Nat} (L : Leads m (v :: w :: vs) (e :: es)) : Joins m e v w ∧ Leads m (w :: vs) es := by
  refine ⟨L.2 0 e v w rfl rfl rfl, by have := L.1; simp at this ⊢; omega, ?_⟩
  intro i e' v' w' h1 h2 h3
  exact L.2 (i + 1) e' v' w' (by simpa using h1) (by simpa using h2) (by simpa using h3)

theorem leads_reverse {m : Mesh P} {vs es : List Nat} (L : Leads m vs es) : Leads m vs.reverse es.reverse := by
  have hlen := L.1
  refine ⟨by simpa using hlen, ?_⟩
  intro i e v w h1 h2 h3
  have hi : i < es.length := by simpa using (List.getElem?_eq_some_iff.1 h1).1
  rw [List.getElem?_reverse hi] at h1
  rw [List.getElem?_reverse (by omega)] at h2 h3
  have := L.2 (es.length - 1 - i) e w v h1 (by rw [← h3]; congr 1; omega) (by rw [← h2]; congr 1; omega)
  rcases this with h | h
  · exact .inr h
  · exact .inl h

/-- The halfedges along a path of edges. -/
theorem path_spec {d : P} {m : Mesh P} (hr : Reachable d m) : ∀ (es vs : List Nat), Leads m vs es → (∀ e ∈ es, LiveE m e) →
    (List.zipWith (out m) vs es).map edgeOf = es ∧ (List.zipWith (out m) vs es).map (src m) = vs.dropLast ∧ (List.zipWith (out m) vs es).map m.target = vs.tail ∧
      (∀ h ∈ List.zipWith (out m) vs es, LiveH m h) := by
  intro es
  induction es with
  | nil =>
    intro vs L _
    match vs, L.1 with
    | [v], _ => simp
  | cons e es ih =>
    intro vs L hl
    match vs, L with
    | v :: w :: vs, L =>
      obtain ⟨hj, L'⟩ := leads_cons L
      obtain ⟨h1, h2, h3, h4, -⟩ := out_spec hr (hl e (by simp)) hj
      obtain ⟨k1, k2, k3, k4⟩ := ih (w :: vs) L' (fun x hx => hl x (by simp [hx]))
      refine ⟨by simp [k1, h3], ?_, ?_, ?_⟩
      · rw [List.zipWith_cons_cons, List.map_cons, h1, k2]; rfl
      · rw [List.zipWith_cons_cons, List.map_cons, h2, k3]; rfl
      · intro h hh
        rw [List.zipWith_cons_cons] at hh
        rcases List.mem_cons.1 hh with rfl | hh
        · exact h4
        · exact k4 h hh
    | [v], L => have := L.1; simp at this

/-- Closed lists of halfedges: each ends where the next one begins. -/
def Ringed (m : Mesh P) (E : List Nat) : Prop := E.map m.target = (E.map (src m)).rotate 1

theorem Ringed.next {m : Mesh P} {E : List Nat} (R : Ringed m E) {i h : Nat} (hi : E[i]? = some h) : ∃ g, E[(i + 1) % E.length]? = some g ∧ m.target h = src m g := by
  have hlt : i < E.length := (List.getElem?_eq_some_iff.1 hi).1
  have hlt' : (i + 1) % E.length < E.length := Nat.mod_lt _ (by omega)
  have h1 : (E.map m.target)[i]? = some (m.target h) := by rw [List.getElem?_map, hi]; rfl
  rw [R, List.getElem?_rotate (by simpa using hlt), List.getElem?_map, List.length_map] at h1
  obtain ⟨g, hg⟩ : ∃ g, E[(i + 1) % E.length]? = some g := ⟨_, List.getElem?_eq_getElem hlt'⟩
  rw [hg] at h1
  exact ⟨g, hg, (Option.some.inj h1).symm⟩

theorem Ringed.rotate {m : Mesh P} {E : List Nat} (R : Ringed m E) (n : Nat) : Ringed m (E.rotate n) := by
  unfold Ringed at R ⊢
  rw [List.map_rotate, List.map_rotate, R, List.rotate_rotate, List.rotate_rotate, Nat.add_comm]

theorem Ringed.noDouble {m : Mesh P} {E : List Nat} (R : Ringed m E) (hs : (E.map (src m)).Nodup) (h3 : 3 ≤ E.length) {h g : Nat} (hh : h ∈ E) (hg : g ∈ E)
    (h1 : src m g = m.target h) : m.target g ≠ src m h := by
  intro h2
  obtain ⟨i, hi⟩ := List.mem_iff_getElem?.1 hh
  have hlt : i < E.length := (List.getElem?_eq_some_iff.1 hi).1
  have key : ∀ (a b j : Nat), E[j]? = some a → b ∈ E → src m a = src m b → E[j]? = some b := by
    intro a b j ha hb hab
    obtain ⟨k, hk⟩ := List.mem_iff_getElem?.1 hb
    have hjl : j < E.length := (List.getElem?_eq_some_iff.1 ha).1
    have : (E.map (src m))[j]? = (E.map (src m))[k]? := by rw [List.getElem?_map, List.getElem?_map, ha, hk]; simp [hab]
    have := (List.getElem?_inj (by simpa using hjl) hs).1 this
    subst this; exact hk
  obtain ⟨g', hg1, hg2⟩ := R.next hi
  have e1 := key g' g _ hg1 hg (by rw [← hg2, h1])
  obtain ⟨h', hh1, hh2⟩ := R.next e1
  have e2 := key h' h _ hh1 hh (by rw [← hh2, h2])
  have hnd : E.Nodup := List.Nodup.of_map _ hs
  have hlt2 : ((i + 1) % E.length + 1) % E.length < E.length := Nat.mod_lt _ (by omega)
  have := (List.getElem?_inj hlt2 hnd).1 (e2.trans hi.symm)
  rw [Nat.mod_add_mod] at this
  have h4 : i + 1 + 1 = i + 2 := rfl
  rcases Nat.lt_or_ge (i + 2) E.length with hc | hc
  · rw [Nat.mod_eq_of_lt (by omega)] at this; omega
  · rw [Nat.mod_eq_sub_mod (by omega), Nat.mod_eq_of_lt (by omega)] at this
    omega

end Mcut.Trace
