import Verif.Lemmas.C88Insert
import Verif.Spec.C88

/-! # The triangles fill the polygon -/
namespace Mcut.Cdt
open Mcut.Hmesh Mcut.Preproc

variable {n : Nat} {ts : List Tri} {fixed : List (Nat × Nat)} {g : Nat → Nat}

/-- A directed side. -/
def sd (g : Nat → Nat) (keep : Bool) (t : Tri) (i : Fin 3) : Nat × Nat := if keep then (g (t.v i), g (t.v (i + 1))) else (g (t.v (i + 1)), g (t.v i))

theorem Disk.sd_inj (D : Disk n ts fixed g) {keep : Bool} {k k' : Nat} {t t' : Tri} (e : ts[k]? = some t) (e' : ts[k']? = some t') {i j : Fin 3} (h : sd g keep t i = sd g keep t' j) : k = k' ∧ i = j := by
  cases keep with
  | true =>
    simp only [sd, if_true, Prod.mk.injEq] at h
    exact D.uniq k k' t t' i j e e' h.1 h.2
  | false =>
    simp only [sd, Bool.false_eq_true, if_false, Prod.mk.injEq] at h
    exact D.uniq k k' t t' i j e e' h.2 h.1

theorem Disk.mate_sd (D : Disk n ts fixed g) (keep : Bool) {k : Nat} {t : Tri} {i : Fin 3} (e : ts[k]? = some t) (hf : edge (t.v i) (t.v (i + 1)) ∉ fixed) :
    ∃ (k' : Nat) (t' : Tri) (l : Fin 3), ts[k']? = some t' ∧ sd g keep t' l = ((sd g keep t i).2, (sd g keep t i).1) ∧ edge (t'.v l) (t'.v (l + 1)) ∉ fixed := by
  obtain ⟨k', t', l, -, e', v1, v2⟩ := D.mate k t i e hf
  refine ⟨k', t', l, e', ?_, ?_⟩
  · cases keep <;> simp [sd, v1, v2]
  · rw [v1, v2, edge_comm]; exact hf

theorem Disk.sd_lt (D : Disk n ts fixed g) (keep : Bool) {t : Tri} (ht : t ∈ ts) (i : Fin 3) : (sd g keep t i).1 < n ∧ (sd g keep t i).2 < n := by
  cases keep <;> simp only [sd, if_true, Bool.false_eq_true, if_false]
  · exact ⟨D.bound t ht _, D.bound t ht _⟩
  · exact ⟨D.bound t ht _, D.bound t ht _⟩

/-- With the right orientation, the fixed sides go around. -/
theorem Disk.direct (D : Disk n ts fixed g) : ∃ keep : Bool, ∀ t ∈ ts, ∀ i, edge (t.v i) (t.v (i + 1)) ∈ fixed → (sd g keep t i).2 = ((sd g keep t i).1 + 1) % n := by
  obtain ⟨fwd, h⟩ := D.rim
  refine ⟨fwd, fun t ht i he => ?_⟩
  have := h t ht i he
  cases fwd with
  | true => simpa only [sd, if_true] using this
  | false => simpa only [sd, Bool.false_eq_true, if_false] using this

theorem two_steps {a : Nat} (three : 3 ≤ n) (ha : a < n) : a ≠ ((a + 1) % n + 1) % n := by
  have q : ∀ j, j < n → (j + 1) % n = j + 1 ∧ j + 1 < n ∨ (j + 1) % n = 0 ∧ j + 1 = n := by
    intro j hj
    by_cases hc : j + 1 = n
    · exact .inr ⟨by rw [hc, Nat.mod_self], hc⟩
    · exact .inl ⟨Nat.mod_eq_of_lt (by omega), by omega⟩
  have h1 := q a ha
  have h2 := q ((a + 1) % n) (Nat.mod_lt _ (by omega))
  omega

/-- A side between consecutive corners is fixed, and goes around. -/
theorem Disk.consecutive (D : Disk n ts fixed g) (three : 3 ≤ n) {keep : Bool} (dir : ∀ t ∈ ts, ∀ i, edge (t.v i) (t.v (i + 1)) ∈ fixed → (sd g keep t i).2 = ((sd g keep t i).1 + 1) % n) {a : Nat} (ha : a < n) :
    ∃ (k : Nat) (t : Tri) (i : Fin 3), ts[k]? = some t ∧ edge (t.v i) (t.v (i + 1)) ∈ fixed ∧ sd g keep t i = (a, (a + 1) % n) ∧
      ∀ (k' : Nat) (t' : Tri) (j : Fin 3), ts[k']? = some t' → (sd g keep t' j = (a, (a + 1) % n) ∨ sd g keep t' j = ((a + 1) % n, a)) → k' = k ∧ j = i := by
  obtain ⟨t, ht, i, hf, hc⟩ := D.all a ha
  obtain ⟨k, e⟩ := List.mem_iff_getElem?.1 ht
  have hd := dir t ht i hf
  have h1 : sd g keep t i = (a, (a + 1) % n) := by
    have : sd g keep t i = (a, (a + 1) % n) ∨ sd g keep t i = ((a + 1) % n, a) := by
      cases keep <;> rcases hc with ⟨h1, h2⟩ | ⟨h1, h2⟩ <;> simp [sd, h1, h2]
    rcases this with h | h
    · exact h
    · rw [h] at hd
      exact absurd hd (two_steps three ha)
  refine ⟨k, t, i, e, hf, h1, ?_⟩
  rintro k' t' j e' (h | h)
  · exact D.sd_inj e' e (h.trans h1.symm)
  · exfalso
    by_cases hf' : edge (t'.v j) (t'.v (j + 1)) ∈ fixed
    · have := dir t' (List.mem_of_getElem? e') j hf'
      rw [h] at this
      exact two_steps three ha this
    · obtain ⟨k2, t2, l, e2, h2, n2⟩ := D.mate_sd keep e' hf'
      rw [h] at h2
      obtain ⟨rfl, rfl⟩ := D.sd_inj e2 e (h2.trans h1.symm)
      obtain rfl : t2 = t := Option.some.inj (e2.symm.trans e)
      exact n2 hf

theorem filterMap_range {α : Type} (l : List α) : (List.range l.length).filterMap (l[·]?) = l := by
  induction l with
  | nil => rfl
  | cons a l ih =>
    rw [List.length_cons, List.range_succ_eq_map, List.filterMap_cons, List.filterMap_map]
    simp only [List.getElem?_cons_zero]
    congr 1

theorem fills (D : Disk n ts fixed g) (three : 3 ≤ n) (count : ts.length + 2 = n) {keep : Bool} (dir : ∀ t ∈ ts, ∀ i, edge (t.v i) (t.v (i + 1)) ∈ fixed → (sd g keep t i).2 = ((sd g keep t i).1 + 1) % n)
    {order : List Nat} (perm : order.Perm (List.range ts.length)) : Fills n ((order.filterMap (ts[·]?)).map (orient g keep)) := by
  have pts : (order.filterMap (ts[·]?)).Perm ts := by
    have := perm.filterMap (ts[·]?)
    rwa [filterMap_range] at this
  have nd : order.Nodup := perm.nodup_iff.2 List.nodup_range
  have mem : ∀ q, q ∈ ((order.filterMap (ts[·]?)).map (orient g keep)).flatMap dirEdges ↔ ∃ (k : Nat) (t : Tri) (i : Fin 3), ts[k]? = some t ∧ q = sd g keep t i := by
    intro q
    rw [List.mem_flatMap]
    constructor
    · rintro ⟨f, hf, hq⟩
      obtain ⟨t, ht, rfl⟩ := List.mem_map.1 hf
      rw [dirEdges_eq] at hq
      obtain ⟨i, hi⟩ := (orient_pairs keep).1 hq
      obtain ⟨k, e⟩ := List.mem_iff_getElem?.1 (pts.mem_iff.1 ht)
      exact ⟨k, t, i, e, hi⟩
    · rintro ⟨k, t, i, e, hq⟩
      refine ⟨_, List.mem_map.2 ⟨t, pts.mem_iff.2 (List.mem_of_getElem? e), rfl⟩, ?_⟩
      rw [dirEdges_eq]
      exact (orient_pairs keep).2 ⟨i, hq⟩
  refine ⟨?_, ?_, ?_, ?_⟩
  · rw [List.length_map, pts.length_eq]; exact count
  · intro f hf
    obtain ⟨t, ht, rfl⟩ := List.mem_map.1 hf
    exact D.good (pts.mem_iff.1 ht) keep
  · rw [List.nodup_flatMap]
    refine ⟨?_, ?_⟩
    · intro f hf
      obtain ⟨t, ht, rfl⟩ := List.mem_map.1 hf
      rw [dirEdges_eq]
      exact cycPairs_nodup _ (D.good (pts.mem_iff.1 ht) keep).1.2.1
    · rw [List.pairwise_map, List.pairwise_filterMap]
      refine nd.imp ?_
      intro k k' hne t e t' e' q hq hq'
      rw [dirEdges_eq] at hq hq'
      exact hne (D.sides e e' hq hq')
  · intro a b
    rw [mem, mem]
    constructor
    · rintro ⟨⟨k, t, i, e, h⟩, hno⟩
      have lt := D.sd_lt keep (List.mem_of_getElem? e) i
      rw [← h] at lt
      by_cases hf : edge (t.v i) (t.v (i + 1)) ∈ fixed
      · have := dir t (List.mem_of_getElem? e) i hf
        rw [← h] at this
        exact ⟨lt.1, this⟩
      · exfalso
        obtain ⟨k', t', l, e', h', -⟩ := D.mate_sd keep e hf
        rw [← h] at h'
        exact hno ⟨k', t', l, e', h'.symm⟩
    · rintro ⟨ha, rfl⟩
      obtain ⟨k, t, i, e, hf, h1, h2⟩ := D.consecutive three dir ha
      refine ⟨⟨k, t, i, e, h1.symm⟩, ?_⟩
      rintro ⟨k', t', j, e', h'⟩
      obtain ⟨rfl, rfl⟩ := h2 k' t' j e' (.inr h'.symm)
      obtain rfl : t' = t := Option.some.inj (e'.symm.trans e)
      rw [← h'] at h1
      have := (Prod.mk.inj h1).2
      exact two_steps three ha (by rw [(Prod.mk.inj h1).1]; have := (Prod.mk.inj h1).1; omega)

theorem orient_reverse (keep : Bool) (t : Tri) : (orient g keep t).reverse = orient g (!keep) t := by
  cases keep <;> rfl

/-- The triangles at a corner. -/
theorem mem_trisAt {a k : Nat} : k ∈ trisAt g ts a ↔ ∃ (t : Tri) (i : Fin 3), ts[k]? = some t ∧ g (t.v i) = a := by
  unfold trisAt
  rw [List.mem_flatMap]
  constructor
  · rintro ⟨k', hk', hm⟩
    rw [List.mem_range] at hk'
    rw [List.getElem?_eq_getElem hk'] at hm
    simp only [List.mem_append] at hm
    have sub : ∀ (c : Prop) [Decidable c], k ∈ (if c then [k'] else []) → k = k' ∧ c := by
      intro c _ h
      by_cases hc : c
      · rw [if_pos hc, List.mem_singleton] at h; exact ⟨h, hc⟩
      · rw [if_neg hc] at h; cases h
    rcases hm with (hm | hm) | hm <;> obtain ⟨rfl, hc⟩ := sub _ hm
    · exact ⟨_, 0, List.getElem?_eq_getElem hk', hc⟩
    · exact ⟨_, 1, List.getElem?_eq_getElem hk', hc⟩
    · exact ⟨_, 2, List.getElem?_eq_getElem hk', hc⟩
  · rintro ⟨t, i, e, h⟩
    refine ⟨k, List.mem_range.2 (List.getElem?_eq_some_iff.1 e).1, ?_⟩
    rw [e]
    simp only [List.mem_append]
    fin_cases i
    · left; left
      change g (t.v 0) = a at h
      rw [if_pos h]; simp
    · left; right
      change g (t.v 1) = a at h
      rw [if_pos h]; simp
    · right
      change g (t.v 2) = a at h
      rw [if_pos h]; simp

/-- The first triangle is the one at the edge. -/
theorem seedTri_spec (D : Disk n ts fixed g) (three : 3 ≤ n) {keep : Bool} (dir : ∀ t ∈ ts, ∀ i, edge (t.v i) (t.v (i + 1)) ∈ fixed → (sd g keep t i).2 = ((sd g keep t i).1 + 1) % n)
    {a : Nat} (ha : a < n) {e : Nat × Nat} (he : e = (a, (a + 1) % n) ∨ e = ((a + 1) % n, a)) :
    ∃ (k : Nat) (t : Tri) (i : Fin 3), seedTri g ts e = some k ∧ ts[k]? = some t ∧ edge (t.v i) (t.v (i + 1)) ∈ fixed ∧ sd g keep t i = (a, (a + 1) % n) := by
  obtain ⟨k, t, i, et, hf, h1, h2⟩ := D.consecutive three dir ha
  have corner : ∀ c, (c = a ∨ c = (a + 1) % n) → k ∈ trisAt g ts c := by
    intro c hc
    rw [mem_trisAt]
    cases keep with
    | true =>
      simp only [sd, if_true, Prod.mk.injEq] at h1
      rcases hc with rfl | rfl
      · exact ⟨t, i, et, h1.1⟩
      · exact ⟨t, i + 1, et, h1.2⟩
    | false =>
      simp only [sd, Bool.false_eq_true, if_false, Prod.mk.injEq] at h1
      rcases hc with rfl | rfl
      · exact ⟨t, i + 1, et, h1.1⟩
      · exact ⟨t, i, et, h1.2⟩
  have c1 : k ∈ trisAt g ts e.1 := corner _ (by rcases he with rfl | rfl <;> simp)
  have c2 : k ∈ trisAt g ts e.2 := corner _ (by rcases he with rfl | rfl <;> simp)
  obtain ⟨k', hk'⟩ : ∃ k', seedTri g ts e = some k' := by
    have : (seedTri g ts e).isSome := by
      unfold seedTri
      rw [List.find?_isSome]
      exact ⟨k, c1, by simpa using c2⟩
    exact Option.isSome_iff_exists.1 this
  have : k' = k := by
    have m1 := List.mem_of_find?_eq_some hk'
    have m2 := List.find?_some hk'
    simp only [List.contains_iff_mem] at m2
    obtain ⟨t1, i1, e1, g1⟩ := mem_trisAt.1 m1
    obtain ⟨t2, i2, e2, g2⟩ := mem_trisAt.1 m2
    obtain rfl : t1 = t2 := Option.some.inj (e1.symm.trans e2)
    have hne : e.1 ≠ e.2 := by
      have := next_ne three ha
      rcases he with rfl | rfl
      · exact this
      · exact this.symm
    have side : ∃ j, sd g keep t1 j = (e.1, e.2) ∨ sd g keep t1 j = (e.2, e.1) := by
      have hi : i1 ≠ i2 := by rintro rfl; exact hne (g1.symm.trans g2)
      have adj' : ∀ i1 i2 : Fin 3, i1 ≠ i2 → i2 = i1 + 1 ∨ i1 = i2 + 1 := by decide
      have adj := adj' i1 i2 hi
      rcases adj with rfl | rfl
      · refine ⟨i1, ?_⟩
        cases keep
        · right; simp [sd, g1, g2]
        · left; simp [sd, g1, g2]
      · refine ⟨i2, ?_⟩
        cases keep
        · left; simp [sd, g1, g2]
        · right; simp [sd, g1, g2]
    obtain ⟨j, hj⟩ := side
    refine (h2 k' t1 j e1 ?_).1
    rcases he with rfl | rfl
    · exact hj
    · exact hj.symm
  subst this
  exact ⟨k', t, i, hk', et, hf, h1⟩

end Mcut.Cdt
