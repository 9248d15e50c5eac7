import Verif.Lemmas.C71Walk
import Mathlib.Data.List.NodupEquivFin

/-! Lemmas for C71: all polygons of one face. -/
namespace Mcut.Trace
open Mcut.Hmesh
variable {P : Type} {m : Mesh P} {E I : List Nat}

theorem order_of_sublist {l todo : List Nat} {h x : Nat} (hnd : l.Nodup) {j : Nat} (hx : l[j]? = some x) (hh : l[j + 1]? = some h) (hs : (h :: todo).Sublist l) : x ∉ h :: todo := by
  intro hm
  have hlt : j + 1 < l.length := (List.getElem?_eq_some_iff.1 hh).1
  have hlt0 : j < l.length := by omega
  have hne : x ≠ h := by
    rintro rfl
    have := (List.getElem?_inj hlt0 hnd).1 (hx.trans hh.symm)
    omega
  have hm' : x ∈ todo := by
    rcases List.mem_cons.1 hm with h' | h'
    · exact absurd h' hne
    · exact h'
  have hs2 : [h, x].Sublist l := (List.Sublist.cons_cons h (List.singleton_sublist.2 hm')).trans hs
  obtain ⟨f, hf⟩ := List.sublist_iff_exists_orderEmbedding_getElem?_eq.1 hs2
  have h0 := hf 0
  have h1 := hf 1
  simp only [List.getElem?_cons_zero, List.getElem?_cons_succ] at h0 h1
  have a := (List.getElem?_inj hlt hnd).1 (hh.trans h0)
  have b := (List.getElem?_inj hlt0 hnd).1 (hx.trans h1)
  have : f 0 < f 1 := f.lt_iff_lt.2 (by omega)
  omega

/-- Halfedges that come back to the start of a walk go on with its first halfedge. -/
theorem Laid.start (L : Laid m E I) (hfirst : ∀ h, E.head? = some h → ∀ g ∈ I, src m g ≠ src m h) {h : Nat} {todo : List Nat} (hs : (h :: todo).Sublist (E ++ I)) (hE : h ∈ E) :
    ∀ x ∈ h :: todo, m.target x = src m h → Turn m E I x h := by
  intro x hx ht
  have hxA := List.mem_append.1 (hs.subset hx)
  rcases hxA with hxE | hxI
  · -- on the boundary: only at the very beginning
    have hno : ¬ ∃ y ∈ I, src m y = m.target x := by
      rintro ⟨y, hy, sy⟩
      obtain ⟨j, hj⟩ := List.mem_iff_getElem?.1 hE
      cases j with
      | zero => exact hfirst h (by rw [List.head?_eq_getElem?]; exact hj) y hy (sy.trans ht)
      | succ j =>
        have hlt : j + 1 < E.length := (List.getElem?_eq_some_iff.1 hj).1
        obtain ⟨z, hz⟩ : ∃ z, E[j]? = some z := ⟨E[j]'(by omega), List.getElem?_eq_getElem _⟩
        have hzE := List.mem_of_getElem? hz
        have := L.targets x hxE z hzE (ht.trans (L.step j z h hz hj).symm)
        subst this
        exact order_of_sublist (j := j) L.nd (by rw [List.getElem?_append_left (by omega)]; exact hz) (by rw [List.getElem?_append_left hlt]; exact hj) hs hx
    exact ⟨.inl hE, ht.symm, fun _ h' => absurd h' hno, fun h' => absurd h' (fun h' => L.disjoint hxE h'), fun h' => absurd h' (fun h' => L.disjoint hxE h')⟩
  · exact ⟨.inl hE, ht.symm, fun h' => absurd h' (fun h' => L.disjoint h' hxI), fun _ _ => hE, fun _ _ h' => L.disjoint hE (h' ▸ L.pairs x hxI)⟩

theorem polygonsOf_sub (all : List Nat) (k : Nat) : ∀ (n : Nat) (todo : List Nat), (polygonsOf m all k n todo).flatten.Subperm todo := by
  intro n
  induction n with
  | zero => intro todo; unfold polygonsOf; simp
  | succ n ih =>
    intro todo
    cases todo with
    | nil => unfold polygonsOf; simp
    | cons h todo =>
      unfold polygonsOf
      simp only
      obtain ⟨p1, p2, -⟩ := walk_perm (m := m) all k h todo.length h [] (h :: todo) (by simp)
      rw [List.nil_append] at p1
      split
      · rw [List.flatten_cons]
        exact ((List.subperm_append_left _).2 (ih _)).trans p1.subperm
      · exact (ih _).trans p2.subperm

/-- Every cut edge of the face is connected with the boundary. -/
theorem sublist_inside (L : Laid m E I) {h : Nat} {todo : List Nat} (hs : (h :: todo).Sublist (E ++ I)) (hI : h ∈ I) : ∀ x ∈ h :: todo, x ∈ I := by
  intro x hx
  rcases List.mem_cons.1 hx with rfl | hx
  · exact hI
  · rcases List.mem_append.1 (hs.subset (List.mem_cons_of_mem _ hx)) with hxE | hxI
    · have := pair_order L.nd ((List.Sublist.cons_cons h (List.singleton_sublist.2 hx)).trans hs) hxE
      exact (L.disjoint this hI).elim
    · exact hxI

/-- All polygons of a face: those with a part of the boundary use up whole cycles; the others only use cut edges that are left. -/
theorem polygonsOf_spec (L : Laid m E I) (hfirst : ∀ h, E.head? = some h → ∀ g ∈ I, src m g ≠ src m h) : ∀ (n : Nat) (todo : List Nat), todo.length ≤ n → todo.Sublist (E ++ I) →
    Whole m E I todo → ∃ ps qs rest, polygonsOf m (E ++ I) E.length n todo = ps ++ qs ∧ (ps.flatten ++ rest).Perm todo ∧ qs.flatten.Subperm rest ∧ (∀ h ∈ rest, h ∈ I) ∧
      Whole m E I rest ∧ ∀ p ∈ ps, 3 ≤ p.length ∧ Cyclic (Turn m E I) p ∧ ∃ h ∈ E, p.head? = some h := by
  intro n
  induction n with
  | zero =>
    intro todo hlen hs W
    have : todo = [] := List.eq_nil_of_length_eq_zero (by omega)
    subst this
    exact ⟨[], [], [], by unfold polygonsOf; simp, by simp, by simp, by simp, W, by simp⟩
  | succ n ih =>
    intro todo hlen hs W
    cases todo with
    | nil => exact ⟨[], [], [], by unfold polygonsOf; simp, by simp, by simp, by simp, W, by simp⟩
    | cons h todo =>
      by_cases hE : h ∈ E
      · obtain ⟨p, t, h1, h2, h3, h4, h5, h6⟩ := walk_cycle L hs W hE (L.start hfirst hs hE) todo.length h [] (h :: todo) (by simp) (by simp) (by simp) hs rfl (by simp)
        have hp0 : 0 < p.length := by omega
        have hnd := h5.nodup_iff.2 (hs.nodup L.nd)
        have W' : Whole m E I t := by
          intro x g hx T
          have hmem : ∀ y, y ∈ t ↔ y ∈ h :: todo ∧ y ∉ p := by
            intro y
            constructor
            · intro hy
              refine ⟨h5.subset (by simp [hy]), fun hyp => ?_⟩
              rw [List.nodup_append] at hnd
              exact hnd.2.2 y hyp y hy rfl
            · rintro ⟨hy, hyp⟩
              rcases List.mem_append.1 (h5.symm.subset hy) with h' | h'
              · exact absurd h' hyp
              · exact h'
          rw [hmem, hmem, W x g hx T]
          refine and_congr_right (fun hg => not_congr ?_)
          have hchain : (p ++ [h]).IsChain (Turn m E I) := by
            unfold Cyclic at h4
            have : p.take 1 = [h] := by
              match p, h2 with
              | y :: l, h2 => simp at h2; simp [h2]
            rwa [this] at h4
          constructor
          · intro hxp
            -- its successor in the cycle
            obtain ⟨i, hi⟩ := List.mem_iff_getElem?.1 hxp
            have hilt : i < p.length := (List.getElem?_eq_some_iff.1 hi).1
            have hi' : (p ++ [h])[i]? = some x := by rw [List.getElem?_append_left hilt]; exact hi
            obtain ⟨y, hy⟩ : ∃ y, (p ++ [h])[i + 1]? = some y := ⟨_, List.getElem?_eq_getElem (by simp; omega)⟩
            have hT : Turn m E I x y := by
              have := List.isChain_iff_getElem.1 hchain i (by simp; omega)
              obtain ⟨_, e1⟩ := List.getElem?_eq_some_iff.1 hi'
              obtain ⟨_, e2⟩ := List.getElem?_eq_some_iff.1 hy
              rw [e1, e2] at this
              exact this
            rw [L.fun hx T hT]
            rcases List.mem_append.1 (List.mem_of_getElem? hy) with h' | h'
            · exact h'
            · simp at h'; subst h'; exact List.mem_of_head? h2
          · intro hgp
            have hph : ∃ z ∈ p, Turn m E I z g := by
              rcases chain_pred p h g hchain (by simp [hgp]) with h' | h'
              · -- the first one: its predecessor is the last
                rw [List.head?_append, h2] at h'
                simp at h'
                subst h'
                have hne : p ≠ [] := by intro h'; rw [h'] at hp0; simp at hp0
                refine ⟨p.getLast hne, List.getLast_mem hne, ?_⟩
                rw [List.isChain_append] at hchain
                exact hchain.2.2 _ (by rw [List.getLast?_eq_getLast_of_ne_nil hne]; rfl) _ rfl
              · exact h'
            obtain ⟨z, hz, Tz⟩ := hph
            have hzA := List.mem_append.1 (hs.subset (h5.subset (by simp [hz] : z ∈ p ++ t)))
            rw [L.inj hx hzA T Tz]; exact hz
        have hlt : t.length ≤ n := by
          have := h5.length_eq
          simp at this hlen
          omega
        obtain ⟨ps, qs, rest, k1, k2, k3, k4, k5, k6⟩ := ih t hlt (h6.trans hs) W'
        refine ⟨p :: ps, qs, rest, ?_, ?_, k3, k4, k5, ?_⟩
        · unfold polygonsOf
          simp only [h1, if_true, k1, List.cons_append]
        · rw [List.flatten_cons, List.append_assoc]
          exact (List.Perm.append_left _ k2).trans h5
        · intro q hq
          rcases List.mem_cons.1 hq with rfl | hq
          · exact ⟨h3, h4, h, hE, h2⟩
          · exact k6 q hq
      · have hI : h ∈ I := (List.mem_append.1 (hs.subset (by simp : h ∈ h :: todo))).resolve_left hE
        exact ⟨[], polygonsOf m (E ++ I) E.length (n + 1) (h :: todo), h :: todo, by simp, by simp, polygonsOf_sub _ _ _ _, sublist_inside L hs hI, W, by simp⟩

theorem Laid.before (L : Laid m E I) {x : Nat} (hx : x ∈ E) : ∃ h ∈ E, m.target h = src m x := by
  obtain ⟨i, hi⟩ := List.mem_iff_getElem?.1 hx
  cases i with
  | zero =>
    have hne : E ≠ [] := by rintro rfl; simp at hx
    exact ⟨E.getLast hne, List.getLast_mem hne, L.back x _ (by rw [List.head?_eq_getElem?]; exact hi) (List.getLast?_eq_getLast_of_ne_nil hne)⟩
  | succ i =>
    have hlt : i + 1 < E.length := (List.getElem?_eq_some_iff.1 hi).1
    obtain ⟨z, hz⟩ : ∃ z, E[i]? = some z := ⟨E[i]'(by omega), List.getElem?_eq_getElem _⟩
    exact ⟨z, List.mem_of_getElem? hz, L.step i z x hz hi⟩

/-- What is left is not connected with the boundary. -/
theorem rest_free (L : Laid m E I) {rest : List Nat} (hI : ∀ h ∈ rest, h ∈ I) (W : Whole m E I rest) {h : Nat} (hh : h ∈ rest) : ¬ Linked m E I h := by
  -- what is left does not touch the boundary
  have hno : ∀ g ∈ rest, ¬ ∃ x ∈ E, src m x = m.target g := by
    intro g hg hx
    obtain ⟨y, T⟩ := L.total (.inr (hI g hg))
    exact L.disjoint (T.outOf (hI g hg) hx) (hI y ((W g y (.inr (hI g hg)) T).1 hg))
  have hpre : ∀ g ∈ rest, ∃ z ∈ rest, m.target z = src m g := by
    intro g hg
    have hgI := hI g hg
    by_cases hx : ∃ x ∈ E, src m x = src m g
    · obtain ⟨x, hx1, hx2⟩ := hx
      obtain ⟨z, hz1, hz2⟩ := L.before hx1
      have T : Turn m E I z g := ⟨.inr hgI, by rw [hz2, hx2], fun _ _ => hgI, fun h' => absurd h' (fun h' => L.disjoint hz1 h'), fun h' => absurd h' (fun h' => L.disjoint hz1 h')⟩
      exact ⟨z, (W z g (.inl hz1) T).2 hg, by rw [hz2, hx2]⟩
    · by_cases hy : ∃ y ∈ I, src m y = src m g ∧ y ≠ g
      · obtain ⟨y, hy1, hy2, hy3⟩ := hy
        have ht : m.target (opposite y) = src m g := by rw [(L.flip y hy1).2, hy2]
        have T : Turn m E I (opposite y) g := by
          refine ⟨.inr hgI, ht.symm, fun _ _ => hgI, fun _ h' => ?_, fun _ _ => ?_⟩
          · rw [ht] at h'; exact absurd h' hx
          · rw [L.twice y hy1]; exact fun h' => hy3 h'.symm
        exact ⟨_, (W _ g (.inr (L.pairs y hy1)) T).2 hg, ht⟩
      · have ht : m.target (opposite g) = src m g := (L.flip g hgI).2
        have T : Turn m E I (opposite g) g := by
          refine ⟨.inr hgI, ht.symm, fun _ _ => hgI, fun _ h' => ?_, fun _ h' => ?_⟩
          · rw [ht] at h'; exact absurd h' hx
          · rw [L.twice g hgI, ht] at h'; exact absurd h' hy
        exact ⟨_, (W _ g (.inr (L.pairs g hgI)) T).2 hg, ht⟩
  have hclosed : ∀ v w, Relation.ReflTransGen (fun v w => ∃ g ∈ I, src m g = v ∧ m.target g = w) v w → (∃ z ∈ rest, m.target z = v) → ∃ z ∈ rest, m.target z = w := by
    intro v w r
    induction r with
    | refl => exact id
    | tail _ hs ih =>
      intro hv
      obtain ⟨z, hz, ht⟩ := ih hv
      obtain ⟨g, hg, sg, tg⟩ := hs
      have hzI := hI z hz
      by_cases hgo : g = opposite z
      · rw [← tg, hgo, (L.flip z hzI).2]; exact hpre z hz
      · obtain ⟨y, T⟩ := L.total (.inr hzI)
        have hy := (W z y (.inr hzI) T).1 hz
        have hyo := T.straight hzI ⟨g, hg, sg.trans ht.symm, hgo⟩
        rcases L.two g hg y (hI y hy) _ (L.pairs z hzI) (sg.trans (ht.symm.trans T.goesOn.symm)) (T.goesOn.trans (L.flip z hzI).1.symm) with h' | h' | h'
        · exact ⟨y, hy, by rw [← tg, h']⟩
        · exact absurd h' hyo
        · exact absurd h' hgo
  rintro ⟨x, hx, r⟩
  obtain ⟨z, hz, ht⟩ := hclosed _ _ r ⟨h, hh, rfl⟩
  exact hno z hz ⟨x, hx, ht.symm⟩

/-- The whole list is closed under going on. -/
theorem whole_all (_ : Laid m E I) : Whole m E I (E ++ I) := fun _ _ hm T => ⟨fun _ => List.mem_append.2 T.mem, fun _ => List.mem_append.2 hm⟩

end Mcut.Trace
