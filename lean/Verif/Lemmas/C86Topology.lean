import Verif.Lemmas.C86Erase

/-! # The check of the topology passes -/
namespace Mcut.Cdt
open Mcut.Geom
variable {K : Type} [Field K] [LinearOrder K] [IsStrictOrderedRing K]

theorem three_all (p : Nat → Bool) (t : Tri) : [t.v 0, t.v 1, t.v 2].all p = true ↔ ∀ i, p (t.v i) = true := by
  simp only [List.all_cons, List.all_nil, Bool.and_true, Bool.and_eq_true]
  constructor
  · rintro ⟨h0, h1, h2⟩ i
    fin_cases i
    exacts [h0, h1, h2]
  · intro h; exact ⟨h 0, h 1, h 2⟩

theorem three_all_n (p : Option Nat → Bool) (t : Tri) : [t.n 0, t.n 1, t.n 2].all p = true ↔ ∀ i, p (t.n i) = true := by
  simp only [List.all_cons, List.all_nil, Bool.and_true, Bool.and_eq_true]
  constructor
  · rintro ⟨h0, h1, h2⟩ i
    fin_cases i
    exacts [h0, h1, h2]
  · intro h; exact ⟨h 0, h 1, h 2⟩

theorem mem_three (t : Tri) (i : Fin 3) : t.v i ∈ [t.v 0, t.v 1, t.v 2] := by fin_cases i <;> simp
theorem mem_three_n (t : Tri) (i : Fin 3) : t.n i ∈ [t.n 0, t.n 1, t.n 2] := by fin_cases i <;> simp

/-- The lists of triangles. -/
theorem vertexMap_spec {ts : List Tri} {n : Nat} (h : ∀ t ∈ ts, ∀ i, t.v i < n) :
    ∃ vt, vertexMap ts n = some vt ∧ vt.length = n ∧ ∀ (v : Nat) (l : List Nat), vt[v]? = some l → ∀ k, k ∈ l ↔ ∃ (t : Tri) (i : Fin 3), ts[k]? = some t ∧ t.v i = v := by
  have hc : ts.all (fun t => t.v 0 < n && t.v 1 < n && t.v 2 < n) = true := by
    rw [List.all_eq_true]
    intro t ht
    simp [h t ht 0, h t ht 1, h t ht 2]
  refine ⟨_, by unfold vertexMap; rw [if_pos hc], by simp, ?_⟩
  intro v l hl k
  rw [List.getElem?_map] at hl
  obtain ⟨v', hv, rfl⟩ := Option.map_eq_some_iff.1 hl
  obtain ⟨hlt, hv'⟩ := List.getElem?_eq_some_iff.1 hv
  rw [List.getElem_range] at hv'
  subst hv'
  rw [List.mem_flatMap]
  constructor
  · rintro ⟨k', hk', hm⟩
    rw [List.mem_range] at hk'
    rw [List.getElem?_eq_getElem hk'] at hm
    have : k = k' ∧ ∃ i, ts[k'].v i = v := by
      simp only [List.mem_append] at hm
      rcases hm with (hm | hm) | hm
      · split at hm
        · rename_i hh; exact ⟨by simpa using hm, 0, hh⟩
        · cases hm
      · split at hm
        · rename_i hh; exact ⟨by simpa using hm, 1, hh⟩
        · cases hm
      · split at hm
        · rename_i hh; exact ⟨by simpa using hm, 2, hh⟩
        · cases hm
    obtain ⟨rfl, i, hi⟩ := this
    exact ⟨ts[k], i, List.getElem?_eq_getElem hk', hi⟩
  · rintro ⟨t, i, e, hi⟩
    refine ⟨k, List.mem_range.2 (List.getElem?_eq_some_iff.1 e).1, ?_⟩
    rw [e]
    simp only [List.mem_append]
    fin_cases i
    · left; left; rw [if_pos (show t.v 0 = v from hi)]; simp
    · left; right; rw [if_pos (show t.v 1 = v from hi)]; simp
    · right; rw [if_pos (show t.v 2 = v from hi)]; simp

theorem topology_true {d : Done} {n : Nat} (hv : d.vt = []) (h : ∀ t ∈ d.tris, ∀ i, t.v i < n)
    (nb : ∀ (j j' : Nat) (u : Tri) (i : Fin 3), d.tris[j]? = some u → u.n i = some j' → ∃ (u' : Tri) (l : Fin 3), d.tris[j']? = some u' ∧ u'.n l = some j) : topology d n = some true := by
  obtain ⟨vt, e, hlen, hm⟩ : ∃ vt, (if d.vt = [] ∧ n ≠ 0 then vertexMap d.tris n else some d.vt) = some vt ∧ vt.length = n ∧
      ∀ (v : Nat) (l : List Nat), vt[v]? = some l → ∀ k, k ∈ l ↔ ∃ (t : Tri) (i : Fin 3), d.tris[k]? = some t ∧ t.v i = v := by
    by_cases hn : n = 0
    · refine ⟨[], by rw [if_neg (by simp [hn]), hv], by simp [hn], by simp⟩
    · obtain ⟨vt, e, h1, h2⟩ := vertexMap_spec h
      exact ⟨vt, by rw [if_pos ⟨hv, hn⟩, e], h1, h2⟩
  unfold topology
  rw [e, Option.bind_some, if_pos]
  · congr 1
    rw [Bool.and_eq_true, Bool.and_eq_true]
    refine ⟨⟨?_, ?_⟩, ?_⟩
    · rw [List.all_eq_true]
      intro v _
      cases hl : vt[v]? with
      | none => rfl
      | some l =>
        rw [List.all_eq_true]
        intro k hk
        obtain ⟨t, i, et, rfl⟩ := (hm v l hl k).1 hk
        rw [et]
        rw [List.contains_iff_mem]
        exact mem_three t i
    · rw [List.all_eq_true]
      intro k hk
      cases et : d.tris[k]? with
      | none => rfl
      | some t =>
        rw [three_all_n]
        intro i
        cases hn : t.n i with
        | none => rfl
        | some k' =>
          obtain ⟨t', l, e', h'⟩ := nb k k' t i et hn
          dsimp only
          rw [e']
          rw [List.contains_iff_mem, ← h']
          exact mem_three_n t' l
    · rw [List.all_eq_true]
      intro k hk
      cases et : d.tris[k]? with
      | none => rfl
      | some t =>
        rw [three_all]
        intro i
        cases hl : vt[t.v i]? with
        | none => rfl
        | some l =>
          rw [List.contains_iff_mem]
          exact (hm _ l hl k).2 ⟨t, i, et, rfl⟩
  · rw [Bool.and_eq_true, List.all_eq_true, List.all_eq_true]
    constructor
    · intro v hv
      rw [List.mem_range, ← hlen] at hv
      rw [List.getElem?_eq_getElem hv]
      dsimp only
      rw [List.all_eq_true]
      intro k hk
      obtain ⟨t, i, et, -⟩ := (hm v _ (List.getElem?_eq_getElem hv) k).1 hk
      exact decide_eq_true (List.getElem?_eq_some_iff.1 et).1
    · intro t ht
      rw [Bool.and_eq_true, three_all, three_all_n]
      constructor
      · intro i
        obtain ⟨k, et⟩ := List.mem_iff_getElem?.1 ht
        cases hn : t.n i with
        | none => rfl
        | some k' =>
          obtain ⟨t', l, e', -⟩ := nb k k' t i et hn
          exact decide_eq_true (List.getElem?_eq_some_iff.1 e').1
      · intro i
        rw [hlen]
        exact decide_eq_true (h t ht i)

end Mcut.Cdt
