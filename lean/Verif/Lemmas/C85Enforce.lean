import Verif.Lemmas.C85Insert
import Verif.Spec.C85

/-! # Lemmas for C85: flipping edges, and inserting all vertices -/
namespace Mcut.Cdt
open Mcut.Geom
variable {K : Type} [Field K] [LinearOrder K] [IsStrictOrderedRing K]

theorem orient_rot2 (a b c : V2 K) : orient2d c a b = orient2d a b c := by unfold orient2d; ring

theorem Placed.closed {pos : Nat → V2 K} {M : Nat} (h : Placed pos M) {v : Nat} (hv : v < M) :
    0 ≤ orient2d (pos 0) (pos 1) (pos v) ∧ 0 ≤ orient2d (pos 1) (pos 2) (pos v) ∧ 0 ≤ orient2d (pos 2) (pos 0) (pos v) := by
  have z : ∀ a b : V2 K, orient2d a b a = 0 ∧ orient2d a b b = 0 := by intro a b; constructor <;> unfold orient2d <;> ring
  have h0 := h.ccw
  by_cases h3 : 3 ≤ v
  · have := h.inside v h3 hv; exact ⟨this.1.le, this.2.1.le, this.2.2.le⟩
  · rcases (by omega : v = 0 ∨ v = 1 ∨ v = 2) with rfl | rfl | rfl
    · refine ⟨(z _ _).1.ge, ?_, (z _ _).2.ge⟩; rw [orient_rot]; exact h0.le
    · refine ⟨(z _ _).2.ge, (z _ _).1.ge, ?_⟩; rw [orient_rot2]; exact h0.le
    · exact ⟨h0.le, (z _ _).2.ge, (z _ _).1.ge⟩

/-- Around a corner of the super-triangle. -/
theorem Placed.turn {pos : Nat → V2 K} {M : Nat} (h : Placed pos M) {c x y z : Nat} (hc : c < 3) (hx : x < M) (hy : y < M) (hz : z < M) (h1 : 0 < orient2d (pos c) (pos x) (pos y)) (h2 : 0 < orient2d (pos c) (pos y) (pos z)) :
    0 < orient2d (pos c) (pos x) (pos z) := by
  have h0 := h.ccw
  have cx := h.closed hx
  have cy := h.closed hy
  have cz := h.closed hz
  rcases (by omega : c = 0 ∨ c = 1 ∨ c = 2) with rfl | rfl | rfl
  · refine corner_trans (b := pos 1) (c := pos 2) h0 ⟨cx.1, ?_⟩ ⟨cy.1, ?_⟩ ⟨cz.1, ?_⟩ h1 h2
    · rw [← orient_rot2]; exact cx.2.2
    · rw [← orient_rot2]; exact cy.2.2
    · rw [← orient_rot2]; exact cz.2.2
  · refine corner_trans (b := pos 2) (c := pos 0) (by rw [orient_rot]; exact h0) ⟨cx.2.1, ?_⟩ ⟨cy.2.1, ?_⟩ ⟨cz.2.1, ?_⟩ h1 h2
    · rw [← orient_rot2]; exact cx.1
    · rw [← orient_rot2]; exact cy.1
    · rw [← orient_rot2]; exact cz.1
  · refine corner_trans (b := pos 0) (c := pos 1) (by rw [orient_rot2]; exact h0) ⟨cx.2.2, ?_⟩ ⟨cy.2.2, ?_⟩ ⟨cz.2.2, ?_⟩ h1 h2
    · rw [← orient_rot2]; exact cx.2.1
    · rw [← orient_rot2]; exact cy.2.1
    · rw [← orient_rot2]; exact cz.2.1

theorem sideOf_left {p a b : V2 K} (h : 0 < orient2d p a b) : sideOf p a b = .left := by unfold sideOf; rw [if_neg (by linarith), if_pos h]
theorem sideOf_right {p a b : V2 K} (h : orient2d p a b < 0) : sideOf p a b = .right := by unfold sideOf; rw [if_pos h]
theorem of_left {p a b : V2 K} (h : Side.left = sideOf p a b) : 0 < orient2d p a b := by
  unfold sideOf at h; split at h
  · cases h
  · split at h
    · assumption
    · cases h
theorem of_right {p a b : V2 K} (h : Side.right = sideOf p a b) : orient2d p a b < 0 := by
  unfold sideOf at h; split at h
  · assumption
  · split at h <;> cases h

/-- When the test says that the edge is to be flipped, both new triangles are counter-clockwise. -/
theorem flip_convex {pos : Nat → V2 K} {M : Nat} (h : Placed pos M) {w v1 v2 v3 : Nat} (hw : 3 ≤ w) (lw : w < M) (l1 : v1 < M) (l2 : v2 < M) (l3 : v3 < M) (c1 : 0 < orient2d (pos v1) (pos v2) (pos v3))
    (c2 : 0 < orient2d (pos w) (pos v1) (pos v3)) (ht : flipTest pos w v1 v2 v3 = true) : 0 < orient2d (pos v3) (pos w) (pos v2) ∧ 0 < orient2d (pos v1) (pos v2) (pos w) := by
  have r1 := orient_rot (pos v1) (pos v2) (pos v3)
  have r2 := orient_rot2 (pos v1) (pos v2) (pos v3)
  have s1 := orient_rot (pos w) (pos v1) (pos v3)
  have s2 := orient_rot2 (pos w) (pos v1) (pos v3)
  have first : v1 < 3 → 0 < orient2d (pos v3) (pos w) (pos v2) → 0 < orient2d (pos v3) (pos w) (pos v2) ∧ 0 < orient2d (pos v1) (pos v2) (pos w) :=
    fun h1 hp => ⟨hp, h.turn h1 l2 l3 lw c1 (by rw [s1]; exact c2)⟩
  have last : v3 < 3 → 0 < orient2d (pos v1) (pos v2) (pos w) → 0 < orient2d (pos v3) (pos w) (pos v2) ∧ 0 < orient2d (pos v1) (pos v2) (pos w) :=
    fun h3 hp => ⟨h.turn h3 lw l1 l2 (by rw [s2]; exact c2) (by rw [r2]; exact c1), hp⟩
  have n1 : orient2d (pos v1) (pos w) (pos v3) < 0 := by rw [orient_swap]; linarith
  have n3 : orient2d (pos v3) (pos v1) (pos w) < 0 := by
    have := orient_rot2 (pos v1) (pos w) (pos v3); rw [this]; exact n1
  unfold flipTest at ht
  rw [if_neg (by omega)] at ht
  by_cases h2 : v2 < 3
  · rw [if_pos h2] at ht
    by_cases h1 : v1 < 3
    · rw [if_pos h1, beq_iff_eq, sideOf_right n1] at ht
      refine first h1 ?_
      have := of_right ht
      have e : orient2d (pos v3) (pos w) (pos v2) = -orient2d (pos v2) (pos w) (pos v3) := by unfold orient2d; ring
      linarith
    · rw [if_neg h1] at ht
      by_cases h3 : v3 < 3
      · rw [if_pos h3, beq_iff_eq, sideOf_right n3] at ht
        refine last h3 ?_
        have := of_right ht
        rw [orient_swap] at this
        linarith
      · rw [if_neg h3] at ht; cases ht
  · rw [if_neg h2] at ht
    by_cases h1 : v1 < 3
    · rw [if_pos h1, beq_iff_eq, sideOf_left c1] at ht
      refine first h1 ?_
      have := of_left ht
      rwa [orient_rot2 (pos w) (pos v2) (pos v3)]
    · rw [if_neg h1] at ht
      by_cases h3 : v3 < 3
      · rw [if_pos h3, beq_iff_eq, sideOf_left (by rw [r2]; exact c1)] at ht
        refine last h3 ?_
        have := of_left ht
        rwa [orient_rot]
      · rw [if_neg h3, decide_eq_true_eq] at ht
        obtain ⟨p, q⟩ := circle_convex c1 c2 ht
        exact ⟨by rwa [orient_rot2], by rwa [orient_rot]⟩

/-- Whether `w` is a corner. -/
def ind (w : Nat) (f : Fin 3 → Nat) : Int := if f 0 = w ∨ f 1 = w ∨ f 2 = w then 1 else 0

theorem ind_bound (w : Nat) (ts : List Tri) : 0 ≤ total (ind w) ts ∧ total (ind w) ts ≤ ts.length := by
  induction ts with
  | nil => simp [total]
  | cons t ts ih =>
    have : 0 ≤ ind w t.v ∧ ind w t.v ≤ 1 := by unfold ind; split <;> omega
    simp only [total, List.map_cons, List.sum_cons, List.length_cons] at ih ⊢
    push_cast
    omega

theorem ind_at {w : Nat} {f : Fin 3 → Nat} (i : Fin 3) : ind w f = if f i = w ∨ f (i + 1) = w ∨ f (i + 2) = w then 1 else 0 := by
  unfold ind
  have : (f 0 = w ∨ f 1 = w ∨ f 2 = w) ↔ (f i = w ∨ f (i + 1) = w ∨ f (i + 2) = w) := by
    fin_cases i
    · exact Iff.rfl
    · show _ ↔ (f 1 = w ∨ f 2 = w ∨ f 0 = w); tauto
    · show _ ↔ (f 2 = w ∨ f 0 = w ∨ f 1 = w); tauto
  simp only [this]

theorem first_corner {t : Tri} {w : Nat} (h : ∃ i, t.v i = w) : ∃ p, first (fun i => t.v i == w) = some p ∧ t.v p = w := by
  unfold first
  by_cases h0 : t.v 0 = w
  · exact ⟨0, by simp [h0], h0⟩
  · by_cases h1 : t.v 1 = w
    · exact ⟨1, by simp [h0, h1], h1⟩
    · by_cases h2 : t.v 2 = w
      · exact ⟨2, by simp [h0, h1, h2], h2⟩
      · obtain ⟨i, hi⟩ := h
        fin_cases i
        · exact absurd hi h0
        · exact absurd hi h1
        · exact absurd hi h2

theorem enforce_good {pos : Nat → V2 K} {M N w : Nat} (h : Placed pos M) (hw : 3 ≤ w) (lw : w < N) (lN : N ≤ M) :
    ∀ (fuel : Nat) (s : St) (stack : List Nat), Good pos N s → (∀ x ∈ stack, Corner s.tris x w) → 2 * ((s.tris.length : Int) - total (ind w) s.tris) + stack.length ≤ fuel →
    ∃ s', enforce pos fuel s w stack = some s' ∧ Good pos N s' ∧ s'.vt.length = s.vt.length := by
  intro fuel
  induction fuel with
  | zero =>
    intro s stack g hs hf
    have := ind_bound w s.tris
    cases stack with
    | nil => exact ⟨s, rfl, g, rfl⟩
    | cons k rest => simp only [List.length_cons] at hf; push_cast at hf; omega
  | succ fuel ih =>
    intro s stack g hs hf
    cases stack with
    | nil => exact ⟨s, rfl, g, rfl⟩
    | cons k rest =>
      simp only [List.length_cons] at hf; push_cast at hf
      have m := g.both
      obtain ⟨t, i0, e, hi0⟩ := hs k (List.mem_cons_self ..)
      obtain ⟨p, hp, hpw⟩ := first_corner ⟨i0, hi0⟩
      have ho : oppTriangle t w = some (t.n (p + 1)) := by unfold oppTriangle; rw [hp]; rfl
      have pop : ∃ s', enforce pos fuel s w rest = some s' ∧ Good pos N s' ∧ s'.vt.length = s.vt.length :=
        ih s rest g (fun x hx => hs x (List.mem_cons_of_mem _ hx)) (by omega)
      unfold enforce
      simp only [e, Option.bind_some, ho]
      cases hn : t.n (p + 1) with
      | none => exact pop
      | some k' =>
        dsimp only
        obtain ⟨t', j, e', hj, hv, hv'⟩ := m.other e hn
        have o2 : oppVertex t' k = some (j + 2) := by unfold oppVertex; rw [m.index e' hj]; rfl
        have hfn : flipNeeded pos s k k' w = some (flipTest pos w (t.v (p + 1)) (t'.v (j + 2)) (t.v (p + 2))) := by
          unfold flipNeeded
          rw [e', Option.bind_some, o2, Option.map_some, fin_a, fin_b, hv, hv', fin_c]
        rw [hfn, Option.bind_some]
        cases hb : flipTest pos w (t.v (p + 1)) (t'.v (j + 2)) (t.v (p + 2)) with
        | false => exact pop
        | true =>
          simp only [if_true]
          have lt : ∀ l, t.v l < M := fun l => lt_of_lt_of_le (g.lt k _ ⟨t, l, e, rfl⟩) lN
          have lt' : ∀ l, t'.v l < M := fun l => lt_of_lt_of_le (g.lt k' _ ⟨t', l, e', rfl⟩) lN
          have ct := ccw_at (m.ccw_get e) p
          have ct' := ccw_at (m.ccw_get e') (j + 1)
          rw [fin_c, fin_d, hv', hv, fin_c] at ct'
          rw [hpw] at ct
          have cv := flip_convex h hw (lt_of_lt_of_le lw lN) (lt _) (lt' _) (lt _) ct' ct hb
          have dt := ccw_ne (m.ccw_get e) p
          have dt' := ccw_ne (m.ccw_get e') j
          have ac := m.across e e' hv hv'
          have fd : p + 1 + 2 = p := fin_d p
          have fc : p + 1 + 1 = p + 2 := fin_c p
          obtain ⟨s', ef, g', ll, cor, cork, cork', tot⟩ := flip_good g e e' hn hj hv hv'
            (by rw [fd, fc, hpw]; exact cv.1) (by rw [fd, hpw]; exact cv.2)
          rw [fd, fc, hpw] at cork tot
          rw [fd, hpw] at cork'
          rw [fc] at hv
          rw [fd] at ac
          rw [ef, Option.bind_some]
          have vl : s'.vt.length = s.vt.length := by
            have hmap : ∀ {vt vt' : List (List Nat)} {v k : Nat}, addAdj vt v k = some vt' → vt'.length = vt.length := by
              intro vt vt' v k hh
              unfold addAdj at hh
              cases hx : vt[v]? with
              | none => rw [hx] at hh; cases hh
              | some l => rw [hx] at hh; rw [← Option.some.inj hh]; simp
            have hmap' : ∀ {vt vt' : List (List Nat)} {v k : Nat}, removeAdj vt v k = some vt' → vt'.length = vt.length := by
              intro vt vt' v k hh
              unfold removeAdj at hh
              cases hx : vt[v]? with
              | none => rw [hx] at hh; cases hh
              | some l =>
                rw [hx, Option.bind_some] at hh
                split at hh
                · rw [← Option.some.inj hh]; simp
                · cases hh
            unfold flip at ef
            simp only [Option.bind_eq_some_iff, Option.map_eq_some_iff] at ef
            obtain ⟨_, _, _, _, _, _, _, _, _, _, _, _, b1, h1, b2, h2, b3, h3, b4, h4, rfl⟩ := ef
            show b4.length = _
            rw [hmap' h4, hmap' h3, hmap h2, hmap h1]
          have i1 : ind w t.v = 1 := by rw [ind_at p, if_pos (.inl hpw)]
          have i2 : ind w t'.v = 0 := by
            rw [ind_at j, if_neg]
            rw [hv, hv']
            rintro (hh | hh | hh)
            · exact dt.2.2 (by rw [hpw, hh])
            · exact dt.1 (by rw [hpw, hh])
            · exact ac (by rw [hpw, hh])
          have i3 : ind w ![t.v (p + 2), w, t'.v (j + 2)] = 1 := by unfold ind; rw [if_pos (.inr (.inl rfl))]
          have i4 : ind w ![t.v (p + 1), t'.v (j + 2), w] = 1 := by unfold ind; rw [if_pos (.inr (.inr rfl))]
          have tt := tot (ind w)
          rw [i1, i2, i3, i4] at tt
          obtain ⟨s2, h2, g2, l2⟩ := ih s' (k' :: k :: rest) g' (by
            intro x hx
            by_cases hxk : x = k
            · rw [hxk, cork]; exact .inr (.inl rfl)
            · by_cases hxk' : x = k'
              · rw [hxk', cork']; exact .inr (.inr rfl)
              · rw [cor x w hxk hxk']
                refine hs x ?_
                simp only [List.mem_cons] at hx ⊢
                tauto) (by
            simp only [List.length_cons]
            push_cast
            omega)
          exact ⟨s2, h2, g2, l2.trans vl⟩

end Mcut.Cdt
