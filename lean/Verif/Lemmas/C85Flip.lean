import Verif.Lemmas.C85Ops

/-! # Lemmas for C85: flipping an edge -/
namespace Mcut.Cdt
open Mcut.Geom
variable {K : Type} [Field K] [LinearOrder K] [IsStrictOrderedRing K]

/-- The edges of the super-triangle. -/
def Rim (a b : Nat) : Prop := (a = 0 ∧ b = 1) ∨ (a = 1 ∧ b = 2) ∨ (a = 2 ∧ b = 0)

/-- How often the boundary of the triangle goes around `q`. -/
def tw (pos : Nat → V2 K) (q : V2 K) (f : Fin 3 → Nat) : Int := wind q (pos (f 0)) (pos (f 1)) (pos (f 2))

theorem tw_at (pos : Nat → V2 K) (q : V2 K) (f : Fin 3 → Nat) (i : Fin 3) : tw pos q f = wind q (pos (f i)) (pos (f (i + 1))) (pos (f (i + 2))) := by
  unfold tw
  have h1 := wind_rot q (pos (f 0)) (pos (f 1)) (pos (f 2))
  have h2 := wind_rot q (pos (f 1)) (pos (f 2)) (pos (f 0))
  fin_cases i
  · rfl
  · exact h1.symm
  · exact (h2.trans h1).symm

/-- A triangulation of the super-triangle with the vertices below `N`. -/
structure Good (pos : Nat → V2 K) (N : Nat) (s : St) : Prop where
  both : Mutual pos s.tris
  lt : ∀ k v, Corner s.tris k v → v < N
  border : ∀ k a b, Has s.tris k a b none → Rim a b
  listed : Listed s.vt (fun v k => Corner s.tris k v)
  len : N ≤ s.vt.length
  around : ∀ q, total (tw pos q) s.tris = wind q (pos 0) (pos 1) (pos 2)
  three : 3 ≤ N
  count : s.tris.length = 2 * (N - 3) + 1
  used : ∀ v, v < N → ∃ k, Corner s.tris k v

theorem fin_a (i : Fin 3) : i + 2 + 1 = i := by revert i; decide
theorem fin_b (i : Fin 3) : i + 2 + 2 = i + 1 := by revert i; decide
theorem fin_c (i : Fin 3) : i + 1 + 1 = i + 2 := by revert i; decide
theorem fin_d (i : Fin 3) : i + 1 + 2 = i := by revert i; decide

theorem fin_ne (i : Fin 3) : i + 1 ≠ i ∧ i + 2 ≠ i ∧ i + 2 ≠ i + 1 := by revert i; decide

theorem Has.index {ts : List Tri} {k a b : Nat} {n : Option Nat} (h : Has ts k a b n) : k < ts.length := by
  obtain ⟨t, e, -⟩ := h
  exact (List.getElem?_eq_some_iff.1 e).1

theorem Corner.index {ts : List Tri} {k v : Nat} (h : Corner ts k v) : k < ts.length := by
  obtain ⟨t, -, e, -⟩ := h
  exact (List.getElem?_eq_some_iff.1 e).1

/-- The fact that `changeNbr` needs. -/
theorem Mutual.change {pos : Nat → V2 K} {ts us : List Tri} (h : Mutual pos ts) {k : Nat} {t : Tri} {l : Fin 3} (e : ts[k]? = some t) (same : ∀ y, t.n l = some y → us[y]? = ts[y]?) (new : Nat) :
    changeNbr us (t.n l) k new = some (ren us (t.n l) k new) := by
  apply changeNbr_eq
  intro y hy
  obtain ⟨t', j, e', h1, -, -⟩ := h.other e hy
  refine ⟨t', j, by rw [same y hy]; exact e', h1, fun j' hj' => h.uniq e' hj' h1⟩

/-- What `flip` needs and does. -/
theorem flip_good {pos : Nat → V2 K} {N : Nat} {s : St} (g : Good pos N s) {k k' : Nat} {t t' : Tri} {i j : Fin 3} (e : s.tris[k]? = some t) (e' : s.tris[k']? = some t')
    (hi : t.n i = some k') (hj : t'.n j = some k) (hv : t'.v j = t.v (i + 1)) (hv' : t'.v (j + 1) = t.v i)
    (c1 : 0 < orient2d (pos (t.v (i + 1))) (pos (t.v (i + 2))) (pos (t'.v (j + 2)))) (c2 : 0 < orient2d (pos (t.v i)) (pos (t'.v (j + 2))) (pos (t.v (i + 2)))) :
    ∃ s', flip s k k' = some s' ∧ Good pos N s' ∧ s'.tris.length = s.tris.length ∧ (∀ x v, x ≠ k → x ≠ k' → (Corner s'.tris x v ↔ Corner s.tris x v)) ∧
      (∀ v, Corner s'.tris k v ↔ v = t.v (i + 1) ∨ v = t.v (i + 2) ∨ v = t'.v (j + 2)) ∧ (∀ v, Corner s'.tris k' v ↔ v = t.v i ∨ v = t'.v (j + 2) ∨ v = t.v (i + 2)) ∧
      (∀ f, total f s'.tris = total f s.tris - f t.v - f t'.v + f ![t.v (i + 1), t.v (i + 2), t'.v (j + 2)] + f ![t.v i, t'.v (j + 2), t.v (i + 2)]) := by
  have m := g.both
  have kk : k ≠ k' := m.ne e hi
  have hlk : k < s.tris.length := (List.getElem?_eq_some_iff.1 e).1
  have hlk' : k' < s.tris.length := (List.getElem?_eq_some_iff.1 e').1
  have ac := m.across e e' hv hv'
  have dt := ccw_ne (m.ccw_get e) i
  have dt' := ccw_ne (m.ccw_get e') j
  obtain ⟨v1, hv1⟩ : ∃ x, x = t.v (i + 2) := ⟨_, rfl⟩
  obtain ⟨v2, hv2⟩ : ∃ x, x = t.v i := ⟨_, rfl⟩
  obtain ⟨v3, hv3⟩ : ∃ x, x = t'.v (j + 2) := ⟨_, rfl⟩
  obtain ⟨v4, hv4⟩ : ∃ x, x = t.v (i + 1) := ⟨_, rfl⟩
  obtain ⟨n1, hn1⟩ : ∃ x, x = t.n (i + 2) := ⟨_, rfl⟩
  obtain ⟨n3, hn3⟩ : ∃ x, x = t.n (i + 1) := ⟨_, rfl⟩
  obtain ⟨n4, hn4⟩ : ∃ x, x = t'.n (j + 2) := ⟨_, rfl⟩
  obtain ⟨n2, hn2⟩ : ∃ x, x = t'.n (j + 1) := ⟨_, rfl⟩
  have iy : ∀ l : Fin 3, l ≠ i → t.n l ≠ some k' := fun l hl h => hl (m.uniq e h hi)
  have jy : ∀ l : Fin 3, l ≠ j → t'.n l ≠ some k := fun l hl h => hl (m.uniq e' h hj)
  have i12 : i + 1 ≠ i ∧ i + 2 ≠ i ∧ i + 2 ≠ i + 1 := fin_ne i
  have j12 : j + 1 ≠ j ∧ j + 2 ≠ j ∧ j + 2 ≠ j + 1 := fin_ne j
  have ik : ∀ l : Fin 3, t.n l ≠ some k := fun l h => m.ne e h rfl
  have jk : ∀ l : Fin 3, t'.n l ≠ some k' := fun l h => m.ne e' h rfl
  -- the sides before
  have hk : ∀ a b n, Has s.tris k a b n ↔ (a = v1 ∧ b = v2 ∧ n = n1) ∨ (a = v2 ∧ b = v4 ∧ n = some k') ∨ (a = v4 ∧ b = v1 ∧ n = n3) := by
    intro a b n
    have : Has s.tris k a b n ↔ HasT t a b n := by unfold Has; rw [e]; simp
    rw [this, hasT_at t (i + 2), fin_a, fin_b, hi, ← hv1, ← hv2, ← hv4, ← hn1, ← hn3]
  have hk' : ∀ a b n, Has s.tris k' a b n ↔ (a = v3 ∧ b = v4 ∧ n = n4) ∨ (a = v4 ∧ b = v2 ∧ n = some k) ∨ (a = v2 ∧ b = v3 ∧ n = n2) := by
    intro a b n
    have : Has s.tris k' a b n ↔ HasT t' a b n := by unfold Has; rw [e']; simp
    rw [this, hasT_at t' (j + 2), fin_a, fin_b, hj, hv, hv', ← hv3, ← hv2, ← hv4, ← hn4, ← hn2]
  -- the new list
  obtain ⟨A, hA⟩ : ∃ x, x = Tri.mk ![v4, v1, v3] ![n3, some k', n4] := ⟨_, rfl⟩
  obtain ⟨B, hB⟩ : ∃ x, x = Tri.mk ![v2, v3, v1] ![n2, some k, n1] := ⟨_, rfl⟩
  obtain ⟨ts0, hts0⟩ : ∃ x, x = (s.tris.set k A).set k' B := ⟨_, rfl⟩
  have get0 : ∀ y, y ≠ k → y ≠ k' → ts0[y]? = s.tris[y]? := by
    intro y h1 h2; rw [hts0, List.getElem?_set_ne (Ne.symm h2), List.getElem?_set_ne (Ne.symm h1)]
  have getk : ts0[k]? = some A := by
    rw [hts0, List.getElem?_set_ne (Ne.symm kk), List.getElem?_set_self hlk]
  have getk' : ts0[k']? = some B := by
    rw [hts0, List.getElem?_set_self (by simpa using hlk')]
  have ne1 : ∀ y, n1 = some y → y ≠ k ∧ y ≠ k' := by
    intro y hy
    exact ⟨fun h => ik (i + 2) (by rw [← hn1, hy, h]), fun h => iy (i + 2) i12.2.1 (by rw [← hn1, hy, h])⟩
  have ne4 : ∀ y, n4 = some y → y ≠ k ∧ y ≠ k' := by
    intro y hy
    exact ⟨fun h => jy (j + 2) j12.2.1 (by rw [← hn4, hy, h]), fun h => jk (j + 2) (by rw [← hn4, hy, h])⟩
  have d : v1 ≠ v2 ∧ v1 ≠ v3 ∧ v1 ≠ v4 ∧ v2 ≠ v3 ∧ v2 ≠ v4 ∧ v3 ≠ v4 := by
    rw [hv, hv'] at dt'
    rw [hv1, hv2, hv3, hv4]
    exact ⟨dt.2.2.symm, ac, dt.2.1.symm, dt'.2.1, dt.1, dt'.2.2.symm⟩
  have e14 : ∀ x, n1 = some x → n4 ≠ some x := by
    intro x h1 h4
    have c1 := (m.sym k x v1 v2 ((hk _ _ _).2 (.inl ⟨rfl, rfl, h1.symm⟩))).corners
    have c4 := (m.sym k' x v3 v4 ((hk' _ _ _).2 (.inl ⟨rfl, rfl, h4.symm⟩))).corners
    exact four c1.2 c1.1 c4.2 c4.1 d.1 d.2.1 d.2.2.1 d.2.2.2.1 d.2.2.2.2.1 d.2.2.2.2.2
  have ch1 : changeNbr ts0 n1 k k' = some (ren ts0 n1 k k') := by
    rw [hn1]
    exact m.change e (fun y hy => get0 y (ne1 y (hn1.trans hy)).1 (ne1 y (hn1.trans hy)).2) k'
  have ch2 : changeNbr (ren ts0 n1 k k') n4 k' k = some (ren (ren ts0 n1 k k') n4 k' k) := by
    rw [hn4]
    refine m.change e' (fun y hy => ?_) k
    rw [← hn4] at hy
    rw [ren_get, ← get0 y (ne4 y hy).1 (ne4 y hy).2]
    have : n1 ≠ some y := fun h => e14 y h hy
    simp only [if_neg this]
    cases ts0[y]? <;> rfl
  obtain ⟨ts', hts'⟩ : ∃ x, x = ren (ren ts0 n1 k k') n4 k' k := ⟨_, rfl⟩
  have x1k : n1 ≠ some k ∧ n1 ≠ some k' := ⟨fun h => (ne1 _ h).1 rfl, fun h => (ne1 _ h).2 rfl⟩
  have x4k : n4 ≠ some k ∧ n4 ≠ some k' := ⟨fun h => (ne4 _ h).1 rfl, fun h => (ne4 _ h).2 rfl⟩
  have rep := flip_replaced (ts := s.tris) (ts' := ts') (n1 := n1) (n2 := n2) (n3 := n3) (n4 := n4) m.sym hk hk'
    (by
      intro a b n
      rw [hts', has_two_ne x1k.1 x4k.1, ← hasT_mk]
      unfold Has; rw [getk, hA]; simp)
    (by
      intro a b n
      rw [hts', has_two_ne x1k.2 x4k.2, ← hasT_mk]
      unfold Has; rw [getk', hB]; simp)
    (by
      intro y a b n h1 h2
      rw [hts', has_two]
      have : ∀ n0, Has ts0 y a b n0 ↔ Has s.tris y a b n0 := by intro n0; unfold Has; rw [get0 y h1 h2]
      simp only [this])
    kk x1k ⟨by rw [hn2]; exact jy _ j12.1, by rw [hn2]; exact jk _⟩ ⟨by rw [hn3]; exact ik _, by rw [hn3]; exact iy _ i12.1⟩ x4k
    (by
      intro x h1 h3
      rw [hn1] at h1; rw [hn3] at h3
      exact i12.2.2 (m.uniq e h1 h3))
    (by
      intro x h1 h3
      rw [hn2] at h1; rw [hn4] at h3
      exact j12.2.2 (m.uniq e' h3 h1))
    d
  -- corners
  have ck0 : ∀ v, Corner s.tris k v ↔ v = v2 ∨ v = v4 ∨ v = v1 := by intro v; rw [corner_at e i, ← hv1, ← hv2, ← hv4]
  have ck0' : ∀ v, Corner s.tris k' v ↔ v = v4 ∨ v = v2 ∨ v = v3 := by intro v; rw [corner_at e' j, hv, hv', ← hv3, ← hv2, ← hv4]
  have cor : ∀ x v, x ≠ k → x ≠ k' → (Corner ts' x v ↔ Corner s.tris x v) := by
    intro x v h1 h2
    rw [hts', corner_ren, corner_ren]; unfold Corner; rw [get0 x h1 h2]
  have cork : ∀ v, Corner ts' k v ↔ v = v4 ∨ v = v1 ∨ v = v3 := by
    intro v; rw [hts', corner_ren, corner_ren, ← corner_mk (ts := ts0) (n := ![n3, some k', n4]) (by rw [getk, hA])]
  have cork' : ∀ v, Corner ts' k' v ↔ v = v2 ∨ v = v3 ∨ v = v1 := by
    intro v; rw [hts', corner_ren, corner_ren, ← corner_mk (ts := ts0) (n := ![n2, some k, n1]) (by rw [getk', hB])]
  have tot : ∀ f, total f ts' = total f s.tris - f t.v - f t'.v + f ![v4, v1, v3] + f ![v2, v3, v1] := by
    intro f
    rw [hts', total_ren, total_ren, hts0, total_set f _ k' t' B (by rw [List.getElem?_set_ne kk]; exact e'), total_set f _ k t A e, hA, hB]
    dsimp only; omega
  -- the lists
  have l2 : v2 < N := g.lt k _ ((ck0 _).2 (.inl rfl))
  have l4 : v4 < N := g.lt k _ ((ck0 _).2 (.inr (.inl rfl)))
  have l1 : v1 < N := g.lt k _ ((ck0 _).2 (.inr (.inr rfl)))
  have l3 : v3 < N := g.lt k' _ ((ck0' _).2 (.inr (.inr rfl)))
  have hl := g.len
  obtain ⟨d12, d13, d14, d23, d24, d34⟩ := d
  obtain ⟨a1, ea1, la1, La1⟩ := addAdj_spec (v := v1) (k := k') g.listed (by omega) (by rw [ck0']; omega)
  obtain ⟨a2, ea2, la2, La2⟩ := addAdj_spec (v := v3) (k := k) La1 (by omega) (by rw [ck0]; omega)
  obtain ⟨a3, ea3, la3, La3⟩ := removeAdj_spec (v := v2) (k := k) La2 (by omega) (by left; left; rw [ck0]; omega)
  obtain ⟨a4, ea4, la4, La4⟩ := removeAdj_spec (v := v4) (k := k') La3 (by omega) (by refine ⟨.inl (.inl ?_), ?_⟩; · rw [ck0']; omega
                                                                                      · omega)
  refine ⟨⟨ts', a4⟩, ?_, ⟨⟨?_, rep.sym m.sym⟩, ?_, rep.border m.sym g.border, ?_, ?_, ?_, g.three, ?_, ?_⟩, ?_, ?_, ?_, ?_, ?_⟩
  · have o1 : oppVertex t k' = some (i + 2) := by unfold oppVertex; rw [m.index e hi]; rfl
    have o2 : oppVertex t' k = some (j + 2) := by unfold oppVertex; rw [m.index e' hj]; rfl
    unfold flip
    simp only [e, e', Option.bind_some, o1, o2, fin_a, fin_b, hv, ← hv1, ← hv2, ← hv3, ← hv4, ← hn1, ← hn2, ← hn3, ← hn4]
    rw [← hA, ← hB, ← hts0, ch1, Option.bind_some, ch2, Option.bind_some, ea1, Option.bind_some, ea2, Option.bind_some, ea3, Option.bind_some, ea4, Option.map_some, hts']
  · intro u hu
    obtain ⟨x, ex⟩ := List.mem_iff_getElem?.1 hu
    have ev : (ts'.map Tri.v)[x]? = some u.v := by rw [List.getElem?_map, ex]; rfl
    rw [hts', ren_verts, ren_verts, List.getElem?_map] at ev
    unfold Ccw
    by_cases hx : x = k
    · subst hx; rw [getk, hA] at ev
      rw [← Option.some.inj ev]
      show 0 < orient2d (pos v4) (pos v1) (pos v3)
      rw [hv4, hv1, hv3]; exact c1
    · by_cases hx' : x = k'
      · subst hx'; rw [getk', hB] at ev
        rw [← Option.some.inj ev]
        show 0 < orient2d (pos v2) (pos v3) (pos v1)
        rw [hv2, hv1, hv3]; exact c2
      · rw [get0 x hx hx'] at ev
        cases eo : s.tris[x]? with
        | none => rw [eo] at ev; cases ev
        | some uo =>
          rw [eo] at ev
          rw [← Option.some.inj ev]
          exact m.ccw_get eo
  · intro x v hc
    by_cases hx : x = k
    · subst hx; rcases (cork v).1 hc with rfl | rfl | rfl <;> assumption
    · by_cases hx' : x = k'
      · subst hx'; rcases (cork' v).1 hc with rfl | rfl | rfl <;> assumption
      · exact g.lt x v ((cor x v hx hx').1 hc)
  · refine La4.congr ?_
    intro v x _
    show _ ↔ Corner ts' x v
    by_cases hx : x = k
    · subst hx; rw [ck0, cork]; omega
    · by_cases hx' : x = k'
      · subst hx'; rw [ck0', cork']; omega
      · rw [cor x v hx hx']; simp [hx, hx']
  · show N ≤ a4.length
    omega
  · intro q
    show total (tw pos q) ts' = _
    rw [tot, g.around, tw_at pos q t.v i, tw_at pos q t'.v j, hv, hv', ← hv1, ← hv2, ← hv3, ← hv4]
    show _ - _ - _ + wind q (pos v4) (pos v1) (pos v3) + wind q (pos v2) (pos v3) (pos v1) = _
    unfold wind
    have := cross_swap q (pos v1) (pos v3)
    have := cross_swap q (pos v2) (pos v4)
    omega
  · show ts'.length = _
    rw [hts', ren_length, ren_length, hts0, List.length_set, List.length_set]; exact g.count
  · intro v hvN
    obtain ⟨x, hx⟩ := g.used v hvN
    by_cases hxk : x = k
    · subst hxk
      rcases (ck0 v).1 hx with h | h | h
      · exact ⟨k', (cork' v).2 (.inl h)⟩
      · exact ⟨x, (cork v).2 (.inl h)⟩
      · exact ⟨x, (cork v).2 (.inr (.inl h))⟩
    · by_cases hxk' : x = k'
      · subst hxk'
        rcases (ck0' v).1 hx with h | h | h
        · exact ⟨k, (cork v).2 (.inl h)⟩
        · exact ⟨x, (cork' v).2 (.inl h)⟩
        · exact ⟨k, (cork v).2 (.inr (.inr h))⟩
      · exact ⟨x, (cor x v hxk hxk').2 hx⟩
  · show ts'.length = _
    rw [hts', ren_length, ren_length, hts0, List.length_set, List.length_set]
  · exact cor
  · rw [← hv1, ← hv3, ← hv4]; exact cork
  · rw [← hv1, ← hv3, ← hv2]; exact cork'
  · rw [← hv1, ← hv3, ← hv2, ← hv4]; exact tot

end Mcut.Cdt
