import Verif.Lemmas.C85Flip

/-! # Lemmas for C85: inserting a vertex in a triangle or on an edge -/
namespace Mcut.Cdt
open Mcut.Geom
variable {K : Type} [Field K] [LinearOrder K] [IsStrictOrderedRing K]

theorem no_iff {p : Prop} (h : ¬p) : p ↔ (0 : Nat) = 1 := ⟨fun x => absurd x h, fun x => by omega⟩

set_option maxHeartbeats 1000000 in
theorem insertIn_good {pos : Nat → V2 K} {N : Nat} {s : St} (g : Good pos N s) {k : Nat} {t : Tri} (e : s.tris[k]? = some t) (hN : N < s.vt.length)
    (c0 : 0 < orient2d (pos (t.v 0)) (pos (t.v 1)) (pos N)) (c1 : 0 < orient2d (pos (t.v 1)) (pos (t.v 2)) (pos N)) (c2 : 0 < orient2d (pos (t.v 2)) (pos (t.v 0)) (pos N)) :
    ∃ s', insertIn s N k = some (s', [s.tris.length + 1, s.tris.length, k]) ∧ Good pos (N + 1) s' ∧ s'.vt.length = s.vt.length ∧ ∀ x ∈ [s.tris.length + 1, s.tris.length, k], Corner s'.tris x N := by
  have m := g.both
  have hlk : k < s.tris.length := (List.getElem?_eq_some_iff.1 e).1
  have dt : t.v 0 ≠ t.v 1 ∧ t.v 1 ≠ t.v 2 ∧ t.v 0 ≠ t.v 2 := ccw_ne (m.ccw_get e) 0
  obtain ⟨v0, hv0⟩ : ∃ x, x = t.v 0 := ⟨_, rfl⟩
  obtain ⟨v1, hv1⟩ : ∃ x, x = t.v 1 := ⟨_, rfl⟩
  obtain ⟨v2, hv2⟩ : ∃ x, x = t.v 2 := ⟨_, rfl⟩
  obtain ⟨n0, hn0⟩ : ∃ x, x = t.n 0 := ⟨_, rfl⟩
  obtain ⟨n1, hn1⟩ : ∃ x, x = t.n 1 := ⟨_, rfl⟩
  obtain ⟨n2, hn2⟩ : ∃ x, x = t.n 2 := ⟨_, rfl⟩
  obtain ⟨k1, hk1⟩ : ∃ x, x = s.tris.length := ⟨_, rfl⟩
  obtain ⟨k2, hk2⟩ : ∃ x, x = s.tris.length + 1 := ⟨_, rfl⟩
  have ik : ∀ l : Fin 3, t.n l ≠ some k := fun l h => m.ne e h rfl
  have hk : ∀ a b n, Has s.tris k a b n ↔ (a = v0 ∧ b = v1 ∧ n = n0) ∨ (a = v1 ∧ b = v2 ∧ n = n1) ∨ (a = v2 ∧ b = v0 ∧ n = n2) := by
    intro a b n
    have : Has s.tris k a b n ↔ HasT t a b n := by unfold Has; rw [e]; simp
    rw [this, hasT_at t 0, hv0, hv1, hv2, hn0, hn1, hn2]; rfl
  have old : ∀ (l : Fin 3) y, t.n l = some y → y < s.tris.length := by
    intro l y hy
    obtain ⟨t', j, e', -⟩ := m.other e hy
    exact (List.getElem?_eq_some_iff.1 e').1
  obtain ⟨A, hA⟩ : ∃ x, x = Tri.mk ![v0, v1, N] ![n0, some k1, some k2] := ⟨_, rfl⟩
  obtain ⟨B1, hB1⟩ : ∃ x, x = Tri.mk ![v1, v2, N] ![n1, some k2, some k] := ⟨_, rfl⟩
  obtain ⟨B2, hB2⟩ : ∃ x, x = Tri.mk ![v2, v0, N] ![n2, some k, some k1] := ⟨_, rfl⟩
  obtain ⟨ts0, hts0⟩ : ∃ x, x = (s.tris ++ [B1, B2]).set k A := ⟨_, rfl⟩
  have get0 : ∀ y, y ≠ k → y ≠ k1 → y ≠ k2 → ts0[y]? = s.tris[y]? := by
    intro y h1 h2 h3
    rw [hts0, List.getElem?_set_ne (Ne.symm h1)]
    by_cases hy : y < s.tris.length
    · rw [List.getElem?_append_left hy]
    · rw [List.getElem?_eq_none (by simp; omega), List.getElem?_eq_none (by omega)]
  have getk : ts0[k]? = some A := by rw [hts0, List.getElem?_set_self (by simp; omega)]
  have getk1 : ts0[k1]? = some B1 := by
    rw [hts0, List.getElem?_set_ne (by omega), hk1, List.getElem?_append_right (by omega)]; simp
  have getk2 : ts0[k2]? = some B2 := by
    rw [hts0, List.getElem?_set_ne (by omega), hk2, List.getElem?_append_right (by omega)]; simp
  have nes : ∀ (l : Fin 3) y, t.n l = some y → y ≠ k ∧ y ≠ k1 ∧ y ≠ k2 := by
    intro l y hy
    have := old l y hy
    exact ⟨fun h => ik l (by rw [hy, h]), by omega, by omega⟩
  have e12 : ∀ x, n1 = some x → n2 ≠ some x := by
    intro x h1 h2; rw [hn1] at h1; rw [hn2] at h2; exact absurd (m.uniq e h1 h2) (by decide)
  have ch1 : changeNbr ts0 n1 k k1 = some (ren ts0 n1 k k1) := by
    rw [hn1]
    exact m.change e (fun y hy => get0 y (nes 1 y hy).1 (nes 1 y hy).2.1 (nes 1 y hy).2.2) k1
  have ch2 : changeNbr (ren ts0 n1 k k1) n2 k k2 = some (ren (ren ts0 n1 k k1) n2 k k2) := by
    rw [hn2]
    refine m.change e (fun y hy => ?_) k2
    rw [ren_get, ← get0 y (nes 2 y hy).1 (nes 2 y hy).2.1 (nes 2 y hy).2.2]
    rw [← hn2] at hy
    have : n1 ≠ some y := fun h => e12 y h hy
    simp only [if_neg this]
    cases ts0[y]? <;> rfl
  obtain ⟨ts', hts'⟩ : ∃ x, x = ren (ren ts0 n1 k k1) n2 k k2 := ⟨_, rfl⟩
  have x1 : n1 ≠ some k ∧ n1 ≠ some k1 ∧ n1 ≠ some k2 := by
    rw [hn1]; exact ⟨fun h => (nes 1 _ h).1 rfl, fun h => (nes 1 _ h).2.1 rfl, fun h => (nes 1 _ h).2.2 rfl⟩
  have x2 : n2 ≠ some k ∧ n2 ≠ some k1 ∧ n2 ≠ some k2 := by
    rw [hn2]; exact ⟨fun h => (nes 2 _ h).1 rfl, fun h => (nes 2 _ h).2.1 rfl, fun h => (nes 2 _ h).2.2 rfl⟩
  have rep := in_replaced (ts := s.tris) (ts' := ts') (k := k) (k1 := k1) (k2 := k2) (v := N) (n0 := n0) (n1 := n1) (n2 := n2) hk
    (by
      intro a b n
      rw [hts', has_two_ne x1.1 x2.1, ← hasT_mk]
      unfold Has; rw [getk, hA]; simp)
    (by
      intro a b n
      rw [hts', has_two_ne x1.2.1 x2.2.1, ← hasT_mk]
      unfold Has; rw [getk1, hB1]; simp)
    (by
      intro a b n
      rw [hts', has_two_ne x1.2.2 x2.2.2, ← hasT_mk]
      unfold Has; rw [getk2, hB2]; simp)
    (by
      intro y a b n h1 h2 h3
      rw [hts', has_two]
      have : ∀ n0, Has ts0 y a b n0 ↔ Has s.tris y a b n0 := by intro n0; unfold Has; rw [get0 y h1 h2 h3]
      simp only [this])
    (List.getElem?_eq_none (by omega)) (List.getElem?_eq_none (by omega)) (by rw [hn0]; exact ik 0) x1.1 x2.1
    (by
      intro x hx
      rw [hn0, hn1, hn2] at hx
      rcases hx with hx | hx | hx
      · exact (nes _ _ hx).2
      · exact (nes _ _ hx).2
      · exact (nes _ _ hx).2)
    (by omega)
    (by intro x h1 h2; rw [hn0] at h1; rw [hn1] at h2; exact absurd (m.uniq e h1 h2) (by decide))
    (by intro x h1 h2; rw [hn0] at h1; rw [hn2] at h2; exact absurd (m.uniq e h1 h2) (by decide))
    e12
  have ck0 : ∀ v, Corner s.tris k v ↔ v = v0 ∨ v = v1 ∨ v = v2 := by intro v; rw [corner_at e 0, hv0, hv1, hv2]; rfl
  have cor : ∀ x v, x ≠ k → x ≠ k1 → x ≠ k2 → (Corner ts' x v ↔ Corner s.tris x v) := by
    intro x v h1 h2 h3
    rw [hts', corner_ren, corner_ren]; unfold Corner; rw [get0 x h1 h2 h3]
  have cork : ∀ v, Corner ts' k v ↔ v = v0 ∨ v = v1 ∨ v = N := by
    intro v; rw [hts', corner_ren, corner_ren, ← corner_mk (ts := ts0) (n := ![n0, some k1, some k2]) (by rw [getk, hA])]
  have cork1 : ∀ v, Corner ts' k1 v ↔ v = v1 ∨ v = v2 ∨ v = N := by
    intro v; rw [hts', corner_ren, corner_ren, ← corner_mk (ts := ts0) (n := ![n1, some k2, some k]) (by rw [getk1, hB1])]
  have cork2 : ∀ v, Corner ts' k2 v ↔ v = v2 ∨ v = v0 ∨ v = N := by
    intro v; rw [hts', corner_ren, corner_ren, ← corner_mk (ts := ts0) (n := ![n2, some k, some k1]) (by rw [getk2, hB2])]
  have tot : ∀ f, total f ts' = total f s.tris - f t.v + f ![v0, v1, N] + f ![v1, v2, N] + f ![v2, v0, N] := by
    intro f
    rw [hts', total_ren, total_ren, hts0, total_set f _ k t A (by rw [List.getElem?_append_left hlk]; exact e), total_append, hA, hB1, hB2]
    simp only [total, List.map_cons, List.map_nil, List.sum_cons, List.sum_nil]; omega
  have l0 : v0 < N := g.lt k _ ((ck0 _).2 (.inl rfl))
  have l1 : v1 < N := g.lt k _ ((ck0 _).2 (.inr (.inl rfl)))
  have l2 : v2 < N := g.lt k _ ((ck0 _).2 (.inr (.inr rfl)))
  have nN : ∀ x, ¬Corner s.tris x N := fun x h => absurd (g.lt x N h) (by omega)
  have n1' : ∀ v, ¬Corner s.tris k1 v := fun v h => absurd h.index (by omega)
  have n2' : ∀ v, ¬Corner s.tris k2 v := fun v h => absurd h.index (by omega)
  have d01 : v0 ≠ v1 := by rw [hv0, hv1]; exact dt.1
  have d12 : v1 ≠ v2 := by rw [hv1, hv2]; exact dt.2.1
  have d02 : v0 ≠ v2 := by rw [hv0, hv2]; exact dt.2.2
  have hkk : k ≠ k1 ∧ k ≠ k2 ∧ k1 ≠ k2 := by omega
  have hl := g.len
  obtain ⟨b1, eb1, lb1, Lb1⟩ := addAdj_spec (v := N) (k := k) g.listed hN (nN k)
  obtain ⟨b2, eb2, lb2, Lb2⟩ := addAdj_spec (v := N) (k := k1) Lb1 (by omega) (by have := nN k1; rw [no_iff this]; omega)
  obtain ⟨b3, eb3, lb3, Lb3⟩ := addAdj_spec (v := N) (k := k2) Lb2 (by omega) (by have := nN k2; rw [no_iff this]; omega)
  obtain ⟨b4, eb4, lb4, Lb4⟩ := addAdj_spec (v := v0) (k := k2) Lb3 (by omega) (by have := n2' v0; rw [no_iff this]; omega)
  obtain ⟨b5, eb5, lb5, Lb5⟩ := addAdj_spec (v := v1) (k := k1) Lb4 (by omega) (by have := n1' v1; rw [no_iff this]; omega)
  obtain ⟨b6, eb6, lb6, Lb6⟩ := removeAdj_spec (v := v2) (k := k) Lb5 (by omega) (by left; left; left; left; left; rw [ck0]; omega)
  obtain ⟨b7, eb7, lb7, Lb7⟩ := addAdj_spec (v := v2) (k := k1) Lb6 (by omega) (by have := n1' v2; rw [no_iff this]; omega)
  obtain ⟨b8, eb8, lb8, Lb8⟩ := addAdj_spec (v := v2) (k := k2) Lb7 (by omega) (by have := n2' v2; rw [no_iff this]; omega)
  have ll : ts'.length = s.tris.length + 2 := by rw [hts', ren_length, ren_length, hts0, List.length_set]; simp
  refine ⟨⟨ts', b8⟩, ?_, ⟨⟨?_, rep.sym m.sym⟩, ?_, rep.border m.sym g.border, ?_, ?_, ?_, by have := g.three; omega, ?_, ?_⟩, ?_, ?_⟩
  · have hk2' : k1 + 1 = k2 := by omega
    unfold insertIn
    simp only [e, Option.bind_some, ← hv0, ← hv1, ← hv2, ← hn0, ← hn1, ← hn2, ← hk1, hk2']
    rw [← hA, ← hB1, ← hB2, ← hts0, eb1, Option.bind_some, eb2, Option.bind_some, eb3, Option.bind_some, eb4, Option.bind_some, eb5, Option.bind_some, eb6, Option.bind_some, eb7, Option.bind_some, eb8, Option.bind_some, ch1,
      Option.bind_some, ch2, Option.map_some, hts']
  · intro u hu
    obtain ⟨x, ex⟩ := List.mem_iff_getElem?.1 hu
    have ev : (ts'.map Tri.v)[x]? = some u.v := by rw [List.getElem?_map, ex]; rfl
    rw [hts', ren_verts, ren_verts, List.getElem?_map] at ev
    unfold Ccw
    by_cases hx : x = k
    · subst hx; rw [getk, hA] at ev
      rw [← Option.some.inj ev]
      show 0 < orient2d (pos v0) (pos v1) (pos N)
      rw [hv0, hv1]; exact c0
    · by_cases hx1 : x = k1
      · rw [hx1, getk1, hB1] at ev
        rw [← Option.some.inj ev]
        show 0 < orient2d (pos v1) (pos v2) (pos N)
        rw [hv2, hv1]; exact c1
      · by_cases hx2 : x = k2
        · rw [hx2, getk2, hB2] at ev
          rw [← Option.some.inj ev]
          show 0 < orient2d (pos v2) (pos v0) (pos N)
          rw [hv2, hv0]; exact c2
        · rw [get0 x hx hx1 hx2] at ev
          cases eo : s.tris[x]? with
          | none => rw [eo] at ev; cases ev
          | some uo =>
            rw [eo] at ev
            rw [← Option.some.inj ev]
            exact m.ccw_get eo
  · intro x v hc
    by_cases hx : x = k
    · rw [hx] at hc; have := (cork v).1 hc; omega
    · by_cases hx1 : x = k1
      · rw [hx1] at hc; have := (cork1 v).1 hc; omega
      · by_cases hx2 : x = k2
        · rw [hx2] at hc; have := (cork2 v).1 hc; omega
        · have := g.lt x v ((cor x v hx hx1 hx2).1 hc); omega
  · refine Lb8.congr ?_
    intro v x _
    show _ ↔ Corner ts' x v
    by_cases hx : x = k
    · rw [hx, ck0, cork]; omega
    · by_cases hx1 : x = k1
      · have := n1' v
        rw [hx1, cork1]; rw [no_iff this]; omega
      · by_cases hx2 : x = k2
        · have := n2' v
          rw [hx2, cork2]; rw [no_iff this]; omega
        · rw [cor x v hx hx1 hx2]; simp [hx, hx1, hx2]
  · show N + 1 ≤ b8.length
    omega
  · intro q
    show total (tw pos q) ts' = _
    rw [tot, g.around]
    show _ - wind q (pos (t.v 0)) (pos (t.v 1)) (pos (t.v 2)) + wind q (pos v0) (pos v1) (pos N) + wind q (pos v1) (pos v2) (pos N) + wind q (pos v2) (pos v0) (pos N) = _
    rw [← hv0, ← hv1, ← hv2]
    unfold wind
    have := cross_swap q (pos v0) (pos N)
    have := cross_swap q (pos v1) (pos N)
    have := cross_swap q (pos v2) (pos N)
    omega
  · show ts'.length = _
    have := g.count; have := g.three
    omega
  · intro v hvN
    by_cases hvn : v = N
    · exact ⟨k, (cork v).2 (.inr (.inr hvn))⟩
    obtain ⟨x, hx⟩ := g.used v (by omega)
    by_cases hxk : x = k
    · subst hxk
      rcases (ck0 v).1 hx with h | h | h
      · exact ⟨x, (cork v).2 (.inl h)⟩
      · exact ⟨x, (cork v).2 (.inr (.inl h))⟩
      · exact ⟨k1, (cork1 v).2 (.inr (.inl h))⟩
    · have := hx.index
      exact ⟨x, (cor x v hxk (by omega) (by omega)).2 hx⟩
  · show b8.length = _
    omega
  · intro x hx
    simp only [List.mem_cons, List.not_mem_nil, or_false] at hx
    show Corner ts' x N
    rcases hx with h | h | h
    · rw [h, ← hk2]; exact (cork2 _).2 (.inr (.inr rfl))
    · rw [h, ← hk1]; exact (cork1 _).2 (.inr (.inr rfl))
    · rw [h]; exact (cork _).2 (.inr (.inr rfl))

set_option maxHeartbeats 2000000 in
theorem insertOn_good {pos : Nat → V2 K} {N : Nat} {s : St} (g : Good pos N s) {k k' : Nat} {t t' : Tri} {i j : Fin 3} (e : s.tris[k]? = some t) (e' : s.tris[k']? = some t')
    (hi : t.n i = some k') (hj : t'.n j = some k) (hv : t'.v j = t.v (i + 1)) (hv' : t'.v (j + 1) = t.v i) (hN : N < s.vt.length)
    (c1 : 0 < orient2d (pos (t.v (i + 2))) (pos (t.v i)) (pos N)) (c2 : 0 < orient2d (pos (t.v (i + 1))) (pos (t.v (i + 2))) (pos N))
    (c3 : 0 < orient2d (pos (t'.v (j + 2))) (pos (t.v (i + 1))) (pos N)) (c4 : 0 < orient2d (pos (t.v i)) (pos (t'.v (j + 2))) (pos N)) :
    ∃ s', insertOn s N k k' = some (s', [s.tris.length, k', s.tris.length + 1, k]) ∧ Good pos (N + 1) s' ∧ s'.vt.length = s.vt.length ∧ ∀ x ∈ [s.tris.length, k', s.tris.length + 1, k], Corner s'.tris x N := by
  have m := g.both
  have kk : k ≠ k' := m.ne e hi
  have hlk : k < s.tris.length := (List.getElem?_eq_some_iff.1 e).1
  have hlk' : k' < s.tris.length := (List.getElem?_eq_some_iff.1 e').1
  have ac := m.across e e' hv hv'
  have dt := ccw_ne (m.ccw_get e) i
  have dt' := ccw_ne (m.ccw_get e') j
  obtain ⟨v1, hv1⟩ : ∃ x, x = t.v (i + 2) := ⟨_, rfl⟩
  obtain ⟨v2, hv2⟩ : ∃ x, x = t.v i := ⟨_, rfl⟩
  obtain ⟨v3, hv3⟩ : ∃ x, x = t'.v (j + 2) := ⟨_, rfl⟩
  obtain ⟨v4, hv4⟩ : ∃ x, x = t.v (i + 1) := ⟨_, rfl⟩
  obtain ⟨n1, hn1⟩ : ∃ x, x = t.n (i + 2) := ⟨_, rfl⟩
  obtain ⟨n4, hn4⟩ : ∃ x, x = t.n (i + 1) := ⟨_, rfl⟩
  obtain ⟨n3, hn3⟩ : ∃ x, x = t'.n (j + 2) := ⟨_, rfl⟩
  obtain ⟨n2, hn2⟩ : ∃ x, x = t'.n (j + 1) := ⟨_, rfl⟩
  obtain ⟨a1, ha1⟩ : ∃ x, x = s.tris.length := ⟨_, rfl⟩
  obtain ⟨a2, ha2⟩ : ∃ x, x = s.tris.length + 1 := ⟨_, rfl⟩
  have iy : ∀ l : Fin 3, l ≠ i → t.n l ≠ some k' := fun l hl h => hl (m.uniq e h hi)
  have jy : ∀ l : Fin 3, l ≠ j → t'.n l ≠ some k := fun l hl h => hl (m.uniq e' h hj)
  have i12 : i + 1 ≠ i ∧ i + 2 ≠ i ∧ i + 2 ≠ i + 1 := fin_ne i
  have j12 : j + 1 ≠ j ∧ j + 2 ≠ j ∧ j + 2 ≠ j + 1 := fin_ne j
  have ik : ∀ l : Fin 3, t.n l ≠ some k := fun l h => m.ne e h rfl
  have jk : ∀ l : Fin 3, t'.n l ≠ some k' := fun l h => m.ne e' h rfl
  have hk : ∀ a b n, Has s.tris k a b n ↔ (a = v1 ∧ b = v2 ∧ n = n1) ∨ (a = v2 ∧ b = v4 ∧ n = some k') ∨ (a = v4 ∧ b = v1 ∧ n = n4) := by
    intro a b n
    have : Has s.tris k a b n ↔ HasT t a b n := by unfold Has; rw [e]; simp
    rw [this, hasT_at t (i + 2), fin_a, fin_b, hi, ← hv1, ← hv2, ← hv4, ← hn1, ← hn4]
  have hk' : ∀ a b n, Has s.tris k' a b n ↔ (a = v3 ∧ b = v4 ∧ n = n3) ∨ (a = v4 ∧ b = v2 ∧ n = some k) ∨ (a = v2 ∧ b = v3 ∧ n = n2) := by
    intro a b n
    have : Has s.tris k' a b n ↔ HasT t' a b n := by unfold Has; rw [e']; simp
    rw [this, hasT_at t' (j + 2), fin_a, fin_b, hj, hv, hv', ← hv3, ← hv2, ← hv4, ← hn3, ← hn2]
  obtain ⟨A, hA⟩ : ∃ x, x = Tri.mk ![v1, v2, N] ![n1, some a2, some a1] := ⟨_, rfl⟩
  obtain ⟨B, hB⟩ : ∃ x, x = Tri.mk ![v3, v4, N] ![n3, some a1, some a2] := ⟨_, rfl⟩
  obtain ⟨C1, hC1⟩ : ∃ x, x = Tri.mk ![v1, N, v4] ![some k, some k', n4] := ⟨_, rfl⟩
  obtain ⟨C2, hC2⟩ : ∃ x, x = Tri.mk ![v3, N, v2] ![some k', some k, n2] := ⟨_, rfl⟩
  obtain ⟨ts0, hts0⟩ : ∃ x, x = ((s.tris ++ [C1, C2]).set k A).set k' B := ⟨_, rfl⟩
  have get0 : ∀ y, y ≠ k → y ≠ k' → y ≠ a1 → y ≠ a2 → ts0[y]? = s.tris[y]? := by
    intro y h1 h2 h3 h4
    rw [hts0, List.getElem?_set_ne (Ne.symm h2), List.getElem?_set_ne (Ne.symm h1)]
    by_cases hy : y < s.tris.length
    · rw [List.getElem?_append_left hy]
    · rw [List.getElem?_eq_none (by simp; omega), List.getElem?_eq_none (by omega)]
  have getk : ts0[k]? = some A := by
    rw [hts0, List.getElem?_set_ne (Ne.symm kk), List.getElem?_set_self (by simp; omega)]
  have getk' : ts0[k']? = some B := by
    rw [hts0, List.getElem?_set_self (by simp; omega)]
  have geta1 : ts0[a1]? = some C1 := by
    rw [hts0, List.getElem?_set_ne (by omega), List.getElem?_set_ne (by omega), ha1, List.getElem?_append_right (by omega)]; simp
  have geta2 : ts0[a2]? = some C2 := by
    rw [hts0, List.getElem?_set_ne (by omega), List.getElem?_set_ne (by omega), ha2, List.getElem?_append_right (by omega)]; simp
  have old : ∀ (l : Fin 3) y, t.n l = some y → y < s.tris.length := by
    intro l y hy
    obtain ⟨t', j, e', -⟩ := m.other e hy
    exact (List.getElem?_eq_some_iff.1 e').1
  have old' : ∀ (l : Fin 3) y, t'.n l = some y → y < s.tris.length := by
    intro l y hy
    obtain ⟨t', j, e', -⟩ := m.other e' hy
    exact (List.getElem?_eq_some_iff.1 e').1
  have ne4 : ∀ y, n4 = some y → y ≠ k ∧ y ≠ k' ∧ y ≠ a1 ∧ y ≠ a2 := by
    intro y hy
    have := old (i + 1) y (by rw [← hn4, hy])
    exact ⟨fun h => ik (i + 1) (by rw [← hn4, hy, h]), fun h => iy (i + 1) i12.1 (by rw [← hn4, hy, h]), by omega, by omega⟩
  have ne2 : ∀ y, n2 = some y → y ≠ k ∧ y ≠ k' ∧ y ≠ a1 ∧ y ≠ a2 := by
    intro y hy
    have := old' (j + 1) y (by rw [← hn2, hy])
    exact ⟨fun h => jy (j + 1) j12.1 (by rw [← hn2, hy, h]), fun h => jk (j + 1) (by rw [← hn2, hy, h]), by omega, by omega⟩
  have d : v1 ≠ v2 ∧ v1 ≠ v3 ∧ v1 ≠ v4 ∧ v2 ≠ v3 ∧ v2 ≠ v4 ∧ v3 ≠ v4 := by
    rw [hv, hv'] at dt'
    rw [hv1, hv2, hv3, hv4]
    exact ⟨dt.2.2.symm, ac, dt.2.1.symm, dt'.2.1, dt.1, dt'.2.2.symm⟩
  have e24 : ∀ x, n4 = some x → n2 ≠ some x := by
    intro x h1 h4
    have c1 := (m.sym k x v4 v1 ((hk _ _ _).2 (.inr (.inr ⟨rfl, rfl, h1.symm⟩)))).corners
    have c4 := (m.sym k' x v2 v3 ((hk' _ _ _).2 (.inr (.inr ⟨rfl, rfl, h4.symm⟩)))).corners
    exact four c1.1 c4.2 c4.1 c1.2 d.1 d.2.1 d.2.2.1 d.2.2.2.1 d.2.2.2.2.1 d.2.2.2.2.2
  have ch1 : changeNbr ts0 n4 k a1 = some (ren ts0 n4 k a1) := by
    rw [hn4]
    exact m.change e (fun y hy => by rw [← hn4] at hy; exact get0 y (ne4 y hy).1 (ne4 y hy).2.1 (ne4 y hy).2.2.1 (ne4 y hy).2.2.2) a1
  have ch2 : changeNbr (ren ts0 n4 k a1) n2 k' a2 = some (ren (ren ts0 n4 k a1) n2 k' a2) := by
    rw [hn2]
    refine m.change e' (fun y hy => ?_) a2
    rw [← hn2] at hy
    rw [ren_get, ← get0 y (ne2 y hy).1 (ne2 y hy).2.1 (ne2 y hy).2.2.1 (ne2 y hy).2.2.2]
    have : n4 ≠ some y := fun h => e24 y h hy
    simp only [if_neg this]
    cases ts0[y]? <;> rfl
  obtain ⟨ts', hts'⟩ : ∃ x, x = ren (ren ts0 n4 k a1) n2 k' a2 := ⟨_, rfl⟩
  have x4 : n4 ≠ some k ∧ n4 ≠ some k' ∧ n4 ≠ some a1 ∧ n4 ≠ some a2 := ⟨fun h => (ne4 _ h).1 rfl, fun h => (ne4 _ h).2.1 rfl, fun h => (ne4 _ h).2.2.1 rfl, fun h => (ne4 _ h).2.2.2 rfl⟩
  have x2 : n2 ≠ some k ∧ n2 ≠ some k' ∧ n2 ≠ some a1 ∧ n2 ≠ some a2 := ⟨fun h => (ne2 _ h).1 rfl, fun h => (ne2 _ h).2.1 rfl, fun h => (ne2 _ h).2.2.1 rfl, fun h => (ne2 _ h).2.2.2 rfl⟩
  have rep := on_replaced (ts := s.tris) (ts' := ts') (a1 := a1) (a2 := a2) (v := N) (n1 := n1) (n2 := n2) (n3 := n3) (n4 := n4) m.sym hk hk'
    (by
      intro a b n
      rw [hts', has_two_ne x4.1 x2.1, ← hasT_mk]
      unfold Has; rw [getk, hA]; simp)
    (by
      intro a b n
      rw [hts', has_two_ne x4.2.1 x2.2.1, ← hasT_mk]
      unfold Has; rw [getk', hB]; simp)
    (by
      intro a b n
      rw [hts', has_two_ne x4.2.2.1 x2.2.2.1, ← hasT_mk]
      unfold Has; rw [geta1, hC1]; simp)
    (by
      intro a b n
      rw [hts', has_two_ne x4.2.2.2 x2.2.2.2, ← hasT_mk]
      unfold Has; rw [geta2, hC2]; simp)
    (by
      intro y a b n h1 h2 h3 h4
      rw [hts', has_two]
      have : ∀ n0, Has ts0 y a b n0 ↔ Has s.tris y a b n0 := by intro n0; unfold Has; rw [get0 y h1 h2 h3 h4]
      simp only [this])
    (List.getElem?_eq_none (by omega)) (List.getElem?_eq_none (by omega))
    (by
      intro x hx
      rw [hn1, hn2, hn3, hn4] at hx
      rcases hx with hx | hx | hx | hx
      · have := old _ _ hx; omega
      · have := old' _ _ hx; omega
      · have := old' _ _ hx; omega
      · have := old _ _ hx; omega)
    kk (by omega) ⟨by rw [hn1]; exact ik _, by rw [hn1]; exact iy _ i12.2.1⟩ ⟨x2.1, x2.2.1⟩ ⟨by rw [hn3]; exact jy _ j12.2.1, by rw [hn3]; exact jk _⟩ ⟨x4.1, x4.2.1⟩
    (by
      intro x h1 h3
      rw [hn1] at h1; rw [hn4] at h3
      exact i12.2.2 (m.uniq e h1 h3))
    (by
      intro x h1 h3
      rw [hn3] at h1; rw [hn2] at h3
      exact j12.2.2 (m.uniq e' h1 h3))
    d
  have ck0 : ∀ v, Corner s.tris k v ↔ v = v2 ∨ v = v4 ∨ v = v1 := by intro v; rw [corner_at e i, ← hv1, ← hv2, ← hv4]
  have ck0' : ∀ v, Corner s.tris k' v ↔ v = v4 ∨ v = v2 ∨ v = v3 := by intro v; rw [corner_at e' j, hv, hv', ← hv3, ← hv2, ← hv4]
  have cor : ∀ x v, x ≠ k → x ≠ k' → x ≠ a1 → x ≠ a2 → (Corner ts' x v ↔ Corner s.tris x v) := by
    intro x v h1 h2 h3 h4
    rw [hts', corner_ren, corner_ren]; unfold Corner; rw [get0 x h1 h2 h3 h4]
  have cork : ∀ v, Corner ts' k v ↔ v = v1 ∨ v = v2 ∨ v = N := by
    intro v; rw [hts', corner_ren, corner_ren, ← corner_mk (ts := ts0) (n := ![n1, some a2, some a1]) (by rw [getk, hA])]
  have cork' : ∀ v, Corner ts' k' v ↔ v = v3 ∨ v = v4 ∨ v = N := by
    intro v; rw [hts', corner_ren, corner_ren, ← corner_mk (ts := ts0) (n := ![n3, some a1, some a2]) (by rw [getk', hB])]
  have cora1 : ∀ v, Corner ts' a1 v ↔ v = v1 ∨ v = N ∨ v = v4 := by
    intro v; rw [hts', corner_ren, corner_ren, ← corner_mk (ts := ts0) (n := ![some k, some k', n4]) (by rw [geta1, hC1])]
  have cora2 : ∀ v, Corner ts' a2 v ↔ v = v3 ∨ v = N ∨ v = v2 := by
    intro v; rw [hts', corner_ren, corner_ren, ← corner_mk (ts := ts0) (n := ![some k', some k, n2]) (by rw [geta2, hC2])]
  have tot : ∀ f, total f ts' = total f s.tris - f t.v - f t'.v + f ![v1, v2, N] + f ![v3, v4, N] + f ![v1, N, v4] + f ![v3, N, v2] := by
    intro f
    rw [hts', total_ren, total_ren, hts0, total_set f _ k' t' B (by rw [List.getElem?_set_ne kk, List.getElem?_append_left hlk']; exact e'),
      total_set f _ k t A (by rw [List.getElem?_append_left hlk]; exact e), total_append, hA, hB, hC1, hC2]
    simp only [total, List.map_cons, List.map_nil, List.sum_cons, List.sum_nil]; omega
  have l2 : v2 < N := g.lt k _ ((ck0 _).2 (.inl rfl))
  have l4 : v4 < N := g.lt k _ ((ck0 _).2 (.inr (.inl rfl)))
  have l1 : v1 < N := g.lt k _ ((ck0 _).2 (.inr (.inr rfl)))
  have l3 : v3 < N := g.lt k' _ ((ck0' _).2 (.inr (.inr rfl)))
  have nN : ∀ x, ¬Corner s.tris x N := fun x h => absurd (g.lt x N h) (by omega)
  have n1' : ∀ v, ¬Corner s.tris a1 v := fun v h => absurd h.index (by omega)
  have n2' : ∀ v, ¬Corner s.tris a2 v := fun v h => absurd h.index (by omega)
  have hkk : k ≠ a1 ∧ k ≠ a2 ∧ k' ≠ a1 ∧ k' ≠ a2 ∧ a1 ≠ a2 := by omega
  have hl := g.len
  obtain ⟨d12, d13, d14, d23, d24, d34⟩ := d
  obtain ⟨b1, eb1, lb1, Lb1⟩ := addAdj_spec (v := N) (k := k) g.listed hN (nN k)
  obtain ⟨b2, eb2, lb2, Lb2⟩ := addAdj_spec (v := N) (k := a2) Lb1 (by omega) (by have := nN a2; rw [no_iff this]; omega)
  obtain ⟨b3, eb3, lb3, Lb3⟩ := addAdj_spec (v := N) (k := k') Lb2 (by omega) (by have := nN k'; rw [no_iff this]; omega)
  obtain ⟨b4, eb4, lb4, Lb4⟩ := addAdj_spec (v := N) (k := a1) Lb3 (by omega) (by have := nN a1; rw [no_iff this]; omega)
  obtain ⟨b5, eb5, lb5, Lb5⟩ := addAdj_spec (v := v1) (k := a1) Lb4 (by omega) (by have := n1' v1; rw [no_iff this]; omega)
  obtain ⟨b6, eb6, lb6, Lb6⟩ := addAdj_spec (v := v3) (k := a2) Lb5 (by omega) (by have := n2' v3; rw [no_iff this]; omega)
  obtain ⟨b7, eb7, lb7, Lb7⟩ := removeAdj_spec (v := v2) (k := k') Lb6 (by omega) (by left; left; left; left; left; left; rw [ck0']; omega)
  obtain ⟨b8, eb8, lb8, Lb8⟩ := addAdj_spec (v := v2) (k := a2) Lb7 (by omega) (by have := n2' v2; rw [no_iff this]; omega)
  obtain ⟨b9, eb9, lb9, Lb9⟩ := removeAdj_spec (v := v4) (k := k) Lb8 (by omega) (by
    left; refine ⟨?_, by omega⟩; left; left; left; left; left; left; rw [ck0]; omega)
  obtain ⟨b10, eb10, lb10, Lb10⟩ := addAdj_spec (v := v4) (k := a1) Lb9 (by omega) (by have := n1' v4; rw [no_iff this]; omega)
  have ll : ts'.length = s.tris.length + 2 := by rw [hts', ren_length, ren_length, hts0, List.length_set, List.length_set]; simp
  refine ⟨⟨ts', b10⟩, ?_, ⟨⟨?_, rep.sym m.sym⟩, ?_, rep.border m.sym g.border, ?_, ?_, ?_, by have := g.three; omega, ?_, ?_⟩, ?_, ?_⟩
  · have o1 : oppVertex t k' = some (i + 2) := by unfold oppVertex; rw [m.index e hi]; rfl
    have o2 : oppVertex t' k = some (j + 2) := by unfold oppVertex; rw [m.index e' hj]; rfl
    have ha2' : a1 + 1 = a2 := by omega
    unfold insertOn
    simp only [e, e', Option.bind_some, o1, o2, fin_a, fin_b, hv, ← hv1, ← hv2, ← hv3, ← hv4, ← hn1, ← hn2, ← hn3, ← hn4, ← ha1, ha2']
    rw [← hA, ← hB, ← hC1, ← hC2, ← hts0, eb1, Option.bind_some, eb2, Option.bind_some, eb3, Option.bind_some, eb4, Option.bind_some, ch1, Option.bind_some, ch2, Option.bind_some, eb5, Option.bind_some, eb6, Option.bind_some,
      eb7, Option.bind_some, eb8, Option.bind_some, eb9, Option.bind_some, eb10, Option.map_some, hts']
  · intro u hu
    obtain ⟨x, ex⟩ := List.mem_iff_getElem?.1 hu
    have ev : (ts'.map Tri.v)[x]? = some u.v := by rw [List.getElem?_map, ex]; rfl
    rw [hts', ren_verts, ren_verts, List.getElem?_map] at ev
    unfold Ccw
    by_cases hx : x = k
    · rw [hx, getk, hA] at ev
      rw [← Option.some.inj ev]
      show 0 < orient2d (pos v1) (pos v2) (pos N)
      rw [hv2, hv1]; exact c1
    · by_cases hx' : x = k'
      · rw [hx', getk', hB] at ev
        rw [← Option.some.inj ev]
        show 0 < orient2d (pos v3) (pos v4) (pos N)
        rw [hv3, hv4]; exact c3
      · by_cases hx1 : x = a1
        · rw [hx1, geta1, hC1] at ev
          rw [← Option.some.inj ev]
          show 0 < orient2d (pos v1) (pos N) (pos v4)
          rw [← orient_rot, ← orient_rot]
          rw [hv1, hv4]; exact c2
        · by_cases hx2 : x = a2
          · rw [hx2, geta2, hC2] at ev
            rw [← Option.some.inj ev]
            show 0 < orient2d (pos v3) (pos N) (pos v2)
            rw [← orient_rot, ← orient_rot]
            rw [hv3, hv2]; exact c4
          · rw [get0 x hx hx' hx1 hx2] at ev
            cases eo : s.tris[x]? with
            | none => rw [eo] at ev; cases ev
            | some uo =>
              rw [eo] at ev
              rw [← Option.some.inj ev]
              exact m.ccw_get eo
  · intro x v hc
    by_cases hx : x = k
    · rw [hx] at hc; have := (cork v).1 hc; omega
    · by_cases hx' : x = k'
      · rw [hx'] at hc; have := (cork' v).1 hc; omega
      · by_cases hx1 : x = a1
        · rw [hx1] at hc; have := (cora1 v).1 hc; omega
        · by_cases hx2 : x = a2
          · rw [hx2] at hc; have := (cora2 v).1 hc; omega
          · have := g.lt x v ((cor x v hx hx' hx1 hx2).1 hc); omega
  · refine Lb10.congr ?_
    intro v x _
    show _ ↔ Corner ts' x v
    by_cases hx : x = k
    · rw [hx, ck0, cork]; omega
    · by_cases hx' : x = k'
      · rw [hx', ck0', cork']; omega
      · by_cases hx1 : x = a1
        · have := n1' v
          rw [hx1, cora1]; rw [no_iff this]; omega
        · by_cases hx2 : x = a2
          · have := n2' v
            rw [hx2, cora2]; rw [no_iff this]; omega
          · rw [cor x v hx hx' hx1 hx2]; simp [hx, hx', hx1, hx2]
  · show N + 1 ≤ b10.length
    omega
  · intro q
    show total (tw pos q) ts' = _
    rw [tot, g.around, tw_at pos q t.v i, tw_at pos q t'.v j, hv, hv', ← hv1, ← hv2, ← hv3, ← hv4]
    show _ - _ - _ + wind q (pos v1) (pos v2) (pos N) + wind q (pos v3) (pos v4) (pos N) + wind q (pos v1) (pos N) (pos v4) + wind q (pos v3) (pos N) (pos v2) = _
    unfold wind
    have := cross_swap q (pos v1) (pos N)
    have := cross_swap q (pos v2) (pos N)
    have := cross_swap q (pos v3) (pos N)
    have := cross_swap q (pos v4) (pos N)
    have := cross_swap q (pos v2) (pos v4)
    omega
  · show ts'.length = _
    have := g.count; have := g.three
    omega
  · intro v hvN
    by_cases hvn : v = N
    · exact ⟨k, (cork v).2 (.inr (.inr hvn))⟩
    obtain ⟨x, hx⟩ := g.used v (by omega)
    by_cases hxk : x = k
    · rw [hxk] at hx
      rcases (ck0 v).1 hx with h | h | h
      · exact ⟨k, (cork v).2 (.inr (.inl h))⟩
      · exact ⟨a1, (cora1 v).2 (.inr (.inr h))⟩
      · exact ⟨k, (cork v).2 (.inl h)⟩
    · by_cases hxk' : x = k'
      · rw [hxk'] at hx
        rcases (ck0' v).1 hx with h | h | h
        · exact ⟨k', (cork' v).2 (.inr (.inl h))⟩
        · exact ⟨a2, (cora2 v).2 (.inr (.inr h))⟩
        · exact ⟨k', (cork' v).2 (.inl h)⟩
      · have := hx.index
        exact ⟨x, (cor x v hxk hxk' (by omega) (by omega)).2 hx⟩
  · show b10.length = _
    omega
  · intro x hx
    simp only [List.mem_cons, List.not_mem_nil, or_false] at hx
    show Corner ts' x N
    rcases hx with h | h | h | h
    · rw [h, ← ha1]; exact (cora1 _).2 (.inr (.inl rfl))
    · rw [h]; exact (cork' _).2 (.inr (.inr rfl))
    · rw [h, ← ha2]; exact (cora2 _).2 (.inr (.inl rfl))
    · rw [h]; exact (cork _).2 (.inr (.inr rfl))

end Mcut.Cdt
