import Verif.Lemmas.C87Count
import Verif.Spec.C87

/-! # The triangles that are left are the polygon -/
namespace Mcut.Cdt
open Mcut.Geom
variable {K : Type} [Field K] [LinearOrder K] [IsStrictOrderedRing K]
variable {pos : Nat → V2 K} {N n : Nat} {s : St} {fixed : List (Nat × Nat)}

theorem crossing_cross (q a b : V2 K) : crossing q a b = cross q a b := rfl

theorem Outline.outlined (three : 3 ≤ n) (O : Outline s.tris n fixed) : Outlined s n fixed := by
  refine ⟨three, O.fix, ?_⟩
  intro i hi
  obtain ⟨t, ht, j, e⟩ := O.there i hi
  obtain ⟨k, hk, rfl⟩ := List.mem_iff_getElem.1 ht
  exact ⟨(⟨k, hk⟩, j), edge_eq.1 e⟩

theorem Outlined.outline (O : Outlined s n fixed) : Outline s.tris n fixed := by
  refine ⟨O.fix, ?_⟩
  intro i hi
  obtain ⟨x, hx⟩ := O.there i hi
  exact ⟨x.tri, List.getElem_mem _, x.2, edge_eq.2 hx⟩

theorem tiles_of (h : Placed pos (n + 3)) (T : Triangulation pos (n + 3) s) (three : 3 ≤ n) (O' : Outline s.tris n fixed) (hf : FixedEdges (n + 3) fixed) {old : List Nat} {d : Done} (E : Erased pos (n + 3) fixed s old d) :
    Tiles (fun v => pos (v + 3)) n d.tris := by
  classical
  have O := O'.outlined three
  obtain ⟨S, hS⟩ : ∃ S : Nat → Prop, ∀ k, S k ↔ ¬Outside fixed s.tris k := ⟨_, fun _ => Iff.rfl⟩
  have closed : ∀ k k', S k → Open fixed s.tris k k' → S k' := fun k k' h ho => by
    rw [hS] at h ⊢
    exact fun h' => h (outside_step h' (T.mutual.open_symm ho))
  have inner : ∀ k, S k → ¬Outside fixed s.tris k := fun k h => (hS k).1 h
  obtain ⟨k1, hk1, hi1⟩ := O.inside h T hf
  obtain ⟨-, ε, hε, sum⟩ := O.sum T closed inner hk1 ((hS k1).2 hi1)
  have nd : old.Nodup := E.order.imp fun h => by omega
  -- from the triangles that are left to those that they were
  have back : ∀ (j : Nat) (u : Tri), d.tris[j]? = some u → ∃ (k : Nat) (t : Tri), old[j]? = some k ∧ s.tris[k]? = some t ∧ S k ∧ ∀ i, t.v i = u.v i + 3 := by
    intro j u hu
    have hj : j < old.length := by rw [← E.len]; exact (List.getElem?_eq_some_iff.1 hu).1
    have e := List.getElem?_eq_getElem hj
    have m := (E.kept old[j]).1 (List.getElem_mem hj)
    have et := List.getElem?_eq_getElem m.1
    exact ⟨_, _, e, et, (hS _).2 m.2, E.corners j _ _ u e et hu⟩
  have forth : ∀ k (hk : k < s.tris.length), S k → ∃ (j : Nat) (u : Tri), old[j]? = some k ∧ d.tris[j]? = some u ∧ ∀ i, s.tris[k].v i = u.v i + 3 := by
    intro k hk hs
    obtain ⟨j, hj⟩ := List.mem_iff_getElem?.1 ((E.kept k).2 ⟨hk, (hS k).1 hs⟩)
    have hj' : j < d.tris.length := by rw [E.len]; exact (List.getElem?_eq_some_iff.1 hj).1
    exact ⟨j, _, hj, List.getElem?_eq_getElem hj', E.corners j k _ _ hj (List.getElem?_eq_getElem hk) (List.getElem?_eq_getElem hj')⟩
  have at3 : ∀ (t u : Tri), (∀ i, t.v i = u.v i + 3) → ∀ i, u.at (fun v => pos (v + 3)) i = t.at pos i := by
    intro t u hv i
    unfold Tri.at
    rw [hv]
  -- a sum over the triangles that are left
  have lsum : ∀ {A : Type} [AddCommGroup A] (g : V2 K → V2 K → V2 K → A), (d.tris.map (fun u => g (u.at (fun v => pos (v + 3)) 0) (u.at (fun v => pos (v + 3)) 1) (u.at (fun v => pos (v + 3)) 2))).sum =
      ∑ k : Fin s.tris.length with S k.1, g (pos (s.tris[k].v 0)) (pos (s.tris[k].v 1)) (pos (s.tris[k].v 2)) := by
    intro A _ g
    obtain ⟨G, hG⟩ : ∃ G : Nat → A, ∀ k (t : Tri), s.tris[k]? = some t → G k = g (t.at pos 0) (t.at pos 1) (t.at pos 2) :=
      ⟨fun k => ((s.tris[k]?).map (fun t => g (t.at pos 0) (t.at pos 1) (t.at pos 2))).getD 0, fun k t e => by show (Option.map _ (s.tris[k]?)).getD 0 = _; rw [e]; rfl⟩
    have e1 : d.tris.map (fun u => g (u.at (fun v => pos (v + 3)) 0) (u.at (fun v => pos (v + 3)) 1) (u.at (fun v => pos (v + 3)) 2)) = old.map G := by
      apply List.ext_getElem
      · rw [List.length_map, List.length_map, E.len]
      · intro j h1 h2
        rw [List.getElem_map, List.getElem_map]
        rw [List.length_map] at h1 h2
        obtain ⟨k, t, ek, et, -, hv⟩ := back j _ (List.getElem?_eq_getElem h1)
        have := (List.getElem?_eq_some_iff.1 ek).2
        rw [this, hG k t et, at3 t _ hv, at3 t _ hv, at3 t _ hv]
    rw [e1, ← List.sum_toFinset G nd]
    have e2 : old.toFinset = (Finset.univ.filter (fun k : Fin s.tris.length => S k.1)).image (fun k => k.1) := by
      apply Finset.ext
      intro k
      rw [List.mem_toFinset, E.kept, Finset.mem_image]
      constructor
      · rintro ⟨hk, ho⟩
        exact ⟨⟨k, hk⟩, Finset.mem_filter.2 ⟨Finset.mem_univ _, (hS k).2 ho⟩, rfl⟩
      · rintro ⟨k', hk', rfl⟩
        exact ⟨k'.2, (hS _).1 (Finset.mem_filter.1 hk').2⟩
    rw [e2, Finset.sum_image (fun a _ b _ e => Fin.ext e)]
    exact Finset.sum_congr rfl fun k _ => hG k _ (List.getElem?_eq_getElem k.2)
  -- the two sums
  have wsum : ∀ q, ∑ k : Fin s.tris.length with S k.1, wind q (pos (s.tris[k].v 0)) (pos (s.tris[k].v 1)) (pos (s.tris[k].v 2)) = ε * turns (fun v => pos (v + 3)) n q := by
    intro q
    obtain ⟨φ, hφ⟩ : ∃ φ : Nat → Nat → Int, ∀ a b, φ a b = cross q (pos a) (pos b) := ⟨fun a b => cross q (pos a) (pos b), fun _ _ => rfl⟩
    have a1 := sum Int φ (fun a b => by rw [hφ, hφ]; exact cross_swap q (pos a) (pos b))
    rw [smul_eq_mul] at a1
    simp only [hφ] at a1
    exact a1
  have asum : ∑ k : Fin s.tris.length with S k.1, orient2d (pos (s.tris[k].v 0)) (pos (s.tris[k].v 1)) (pos (s.tris[k].v 2)) = ε • shoelace (fun v => pos (v + 3)) n := by
    obtain ⟨φ, hφ⟩ : ∃ φ : Nat → Nat → K, ∀ a b, φ a b = (pos a).x * (pos b).y - (pos b).x * (pos a).y := ⟨_, fun _ _ => rfl⟩
    have a1 := sum K φ (fun a b => by rw [hφ, hφ]; ring)
    simp only [hφ] at a1
    refine Eq.trans (Finset.sum_congr rfl ?_) a1
    intro k _
    unfold orient2d; ring
  have pos1 : ∀ k : Fin s.tris.length, 0 < orient2d (pos (s.tris[k].v 0)) (pos (s.tris[k].v 1)) (pos (s.tris[k].v 2)) := fun k => T.ccw _ (List.getElem_mem k.2)
  have apos : 0 < ∑ k : Fin s.tris.length with S k.1, orient2d (pos (s.tris[k].v 0)) (pos (s.tris[k].v 1)) (pos (s.tris[k].v 2)) :=
    Finset.sum_pos (fun k _ => pos1 k) ⟨⟨k1, hk1⟩, Finset.mem_filter.2 ⟨Finset.mem_univ _, (hS k1).2 hi1⟩⟩
  have wb : ∀ (q : V2 K) (k : Fin s.tris.length), _ := fun q k => wind_bound (q := q) (pos1 k)
  have wrange : ∀ q, 0 ≤ ε * turns (fun v => pos (v + 3)) n q ∧ ε * turns (fun v => pos (v + 3)) n q ≤ 1 := by
    intro q
    rw [← wsum]
    refine ⟨Finset.sum_nonneg fun k _ => (wb q k).1, ?_⟩
    have b0 := wind_bound (q := q) h.ccw
    rw [← h.once T q] at b0
    exact le_trans (Finset.sum_le_sum_of_subset_of_nonneg (Finset.filter_subset _ _) (fun k _ _ => (wb q k).1)) b0.2
  refine ⟨?_, fun u hu i => by have := E.vertices u hu i; omega, E.ccw, ?_, ⟨ε, ?_, ?_, ?_, ?_⟩, ?_⟩
  · -- the number
    have c := O.count h T hf
    have e : (Finset.univ.filter (fun k : Fin s.tris.length => ¬Outside fixed s.tris k)).card = d.tris.length := by
      have := lsum (A := Int) (fun _ _ _ => 1)
      rw [Finset.sum_const, List.map_const', List.sum_replicate] at this
      simp only [smul_eq_mul, mul_one, nsmul_eq_mul] at this
      have e2 : (Finset.univ.filter (fun k : Fin s.tris.length => ¬Outside fixed s.tris k)) = Finset.univ.filter (fun k : Fin s.tris.length => S k.1) := Finset.filter_congr fun k _ => (hS k).symm
      rw [e2]
      exact_mod_cast this.symm
    omega
  · intro q j j' u u' hu hu' hq hq'
    obtain ⟨k, t, ek, et, -, hv⟩ := back j u hu
    obtain ⟨k', t', ek', et', -, hv'⟩ := back j' u' hu'
    rw [at3 t u hv, at3 t u hv, at3 t u hv] at hq
    rw [at3 t' u' hv', at3 t' u' hv', at3 t' u' hv'] at hq'
    have := T.apart q k k' t t' et et' hq hq'
    subst this
    exact (List.getElem?_inj (List.getElem?_eq_some_iff.1 ek).1 nd).1 (ek.trans ek'.symm)
  · rw [asum] at apos
    rcases hε with rfl | rfl
    · left
      rw [one_smul] at apos
      exact ⟨rfl, apos⟩
    · right
      rw [neg_smul, one_smul] at apos
      exact ⟨rfl, by linarith⟩
  · intro q
    have := wrange q
    rcases hε with rfl | rfl <;> omega
  · intro q u hu hq
    obtain ⟨j, hj⟩ := List.mem_iff_getElem?.1 hu
    obtain ⟨k, t, ek, et, hs, hv⟩ := back j u hj
    rw [at3 t u hv, at3 t u hv, at3 t u hv] at hq
    obtain ⟨hk, rfl⟩ := List.getElem?_eq_some_iff.1 et
    have w1 : wind q (pos (s.tris[k].v 0)) (pos (s.tris[k].v 1)) (pos (s.tris[k].v 2)) = 1 := (wind_spec (q := q) (pos1 ⟨k, hk⟩)).1 hq.1 hq.2.1 hq.2.2
    have p : 0 < ∑ k : Fin s.tris.length with S k.1, wind q (pos (s.tris[k].v 0)) (pos (s.tris[k].v 1)) (pos (s.tris[k].v 2)) := by
      apply Finset.sum_pos' (fun k _ => (wb q k).1)
      exact ⟨⟨k, hk⟩, Finset.mem_filter.2 ⟨Finset.mem_univ _, hs⟩, by rw [show wind q (pos (s.tris[(⟨k, hk⟩ : Fin s.tris.length)].v 0)) (pos (s.tris[(⟨k, hk⟩ : Fin s.tris.length)].v 1)) (pos (s.tris[(⟨k, hk⟩ : Fin s.tris.length)].v 2)) = 1 from w1]; exact Int.one_pos⟩
    rw [wsum] at p
    have := wrange q
    rcases hε with rfl | rfl <;> omega
  · intro q hq
    by_contra hno
    push Not at hno
    have z : ∑ k : Fin s.tris.length with S k.1, wind q (pos (s.tris[k].v 0)) (pos (s.tris[k].v 1)) (pos (s.tris[k].v 2)) = 0 := by
      apply Finset.sum_eq_zero
      intro k hk
      obtain ⟨j, u, -, eu, hv⟩ := forth k k.2 (Finset.mem_filter.1 hk).2
      have := hno u (List.mem_of_getElem? eu)
      rw [at3 _ u hv, at3 _ u hv, at3 _ u hv] at this
      exact (wind_spec (q := q) (pos1 k)).2 this
    rw [wsum] at z
    rcases hε with rfl | rfl <;> omega
  · rw [lsum (fun a b c => orient2d a b c)]
    rw [asum] at apos ⊢
    rcases hε with rfl | rfl
    · rw [one_smul] at apos ⊢
      exact (abs_of_pos apos).symm
    · rw [neg_smul, one_smul] at apos ⊢
      exact (abs_of_neg (by linarith)).symm

end Mcut.Cdt
