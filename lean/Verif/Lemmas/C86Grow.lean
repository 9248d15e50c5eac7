import Verif.Spec.C86
import Mathlib.Tactic.FinCases
import Mathlib.Data.List.Perm.Subperm
import Mathlib.Data.Fintype.Basic

/-! # Growing to the fixed edges reaches exactly what can be reached -/
namespace Mcut.Cdt
open Mcut.Geom

variable {fixed : List (Nat × Nat)} {ts : List Tri}

theorem edge_comm (a b : Nat) : edge a b = edge b a := by
  unfold edge
  by_cases h : a < b
  · rw [if_pos h, if_neg (by omega)]
  · by_cases h' : b < a
    · rw [if_neg h, if_pos h']
    · rw [if_neg h, if_neg h']; have : a = b := by omega
      rw [this]

/-- `pushSide` pushes at most the one neighbour. -/
theorem pushSide_eq (t : Tri) (tr st : List Nat) (i : Fin 3) :
    ∃ l : List Nat, pushSide fixed t tr st i = l ++ st ∧ l.length ≤ 1 ∧ ∀ x, x ∈ l ↔ t.n (i + 1) = some x ∧ edge (t.v (i + 1)) (t.v (i + 2)) ∉ fixed ∧ x ∉ tr := by
  unfold pushSide
  by_cases hf : edge (t.v (i + 1)) (t.v (i + 2)) ∈ fixed
  · exact ⟨[], by rw [if_pos hf]; rfl, by simp, by intro x; simp [hf]⟩
  · rw [if_neg hf]
    cases hn : t.n (i + 1) with
    | none => exact ⟨[], rfl, by simp, by intro x; simp⟩
    | some k =>
      by_cases hk : k ∈ tr
      · refine ⟨[], by simp [hk], by simp, ?_⟩
        intro x
        simp only [List.not_mem_nil, Option.some.injEq, false_iff, not_and, not_not]
        rintro rfl _; exact hk
      · refine ⟨[k], by simp [hk], by simp, ?_⟩
        intro x
        simp only [List.mem_singleton, Option.some.injEq]
        constructor
        · rintro rfl; exact ⟨rfl, hf, hk⟩
        · rintro ⟨rfl, -⟩; rfl

/-- All three sides. -/
theorem push_eq {k : Nat} {t : Tri} (e : ts[k]? = some t) (tr st : List Nat) :
    ∃ l : List Nat, pushSide fixed t tr (pushSide fixed t tr (pushSide fixed t tr st 0) 1) 2 = l ++ st ∧ l.length ≤ 3 ∧ ∀ x, x ∈ l ↔ Open fixed ts k x ∧ x ∉ tr := by
  obtain ⟨l0, e0, n0, h0⟩ := pushSide_eq (fixed := fixed) t tr st 0
  obtain ⟨l1, e1, n1, h1⟩ := pushSide_eq (fixed := fixed) t tr (l0 ++ st) 1
  obtain ⟨l2, e2, n2, h2⟩ := pushSide_eq (fixed := fixed) t tr (l1 ++ (l0 ++ st)) 2
  refine ⟨l2 ++ (l1 ++ l0), by rw [e0, e1, e2]; simp, by simp only [List.length_append]; omega, ?_⟩
  intro x
  rw [List.mem_append, List.mem_append, h0, h1, h2]
  constructor
  · rintro (⟨a, b, c⟩ | ⟨a, b, c⟩ | ⟨a, b, c⟩)
    · exact ⟨⟨t, 0, e, a, b⟩, c⟩
    · exact ⟨⟨t, 2, e, a, b⟩, c⟩
    · exact ⟨⟨t, 1, e, a, b⟩, c⟩
  · rintro ⟨⟨t', i, e', a, b⟩, c⟩
    rw [e] at e'
    cases Option.some.inj e'
    fin_cases i
    · exact .inl ⟨a, b, c⟩
    · exact .inr (.inr ⟨a, b, c⟩)
    · exact .inr (.inl ⟨a, b, c⟩)

theorem grow_spec (valid : ∀ k k', Open fixed ts k k' → k' < ts.length) (seed : Nat) (fuel : Nat) : ∀ (st tr : List Nat),
    3 * (ts.length - tr.length) + st.length ≤ fuel → tr.Nodup → (∀ k ∈ tr, k < ts.length) → (∀ k ∈ st, k < ts.length) →
    (∀ k, k ∈ tr ∨ k ∈ st → Relation.ReflTransGen (Open fixed ts) seed k) → (seed ∈ tr ∨ seed ∈ st) →
    (∀ k ∈ tr, ∀ k', Open fixed ts k k' → k' ∈ tr ∨ k' ∈ st) →
    (∀ l1 k l2, st = l1 ++ k :: l2 → k ∈ tr → ∀ k', Open fixed ts k k' → k' ∈ tr ∨ k' ∈ l1) →
    ∃ r, grow fixed ts fuel st tr = some r ∧ r.Nodup ∧ ∀ k, k ∈ r ↔ Relation.ReflTransGen (Open fixed ts) seed k := by
  induction fuel with
  | zero =>
    intro st tr hf nd ltr lst reach hs closed above
    have : st = [] := List.length_eq_zero_iff.1 (by omega)
    subst this
    refine ⟨tr, by unfold grow; rfl, nd, fun k => ⟨fun h => reach k (.inl h), fun h => ?_⟩⟩
    induction h with
    | refl => simpa using hs
    | tail _ ho ih => simpa using closed _ ih _ ho
  | succ fuel ih =>
    intro st tr hf nd ltr lst reach hs closed above
    cases st with
    | nil =>
      refine ⟨tr, by unfold grow; rfl, nd, fun k => ⟨fun h => reach k (.inl h), fun h => ?_⟩⟩
      induction h with
      | refl => simpa using hs
      | tail _ ho ih => simpa using closed _ ih _ ho
    | cons k rest =>
      have hk := lst k (by simp)
      have e : ts[k]? = some ts[k] := List.getElem?_eq_getElem hk
      obtain ⟨tr', htr'⟩ : ∃ tr', tr' = if k ∈ tr then tr else k :: tr := ⟨_, rfl⟩
      obtain ⟨l, el, ln, hl⟩ := push_eq (fixed := fixed) e tr' rest
      have hmem : ∀ x, x ∈ tr' ↔ x = k ∨ x ∈ tr := by
        intro x
        rw [htr']
        by_cases h : k ∈ tr
        · rw [if_pos h]
          constructor
          · exact .inr
          · rintro (rfl | h'); exacts [h, h']
        · rw [if_neg h]; simp
      have hstep : grow fixed ts (fuel + 1) (k :: rest) tr = grow fixed ts fuel (l ++ rest) tr' := by
        rw [grow, e]
        simp only [Option.bind_some]
        rw [← htr', el]
      rw [hstep]
      have nd' : tr'.Nodup := by
        rw [htr']
        by_cases h : k ∈ tr
        · rw [if_pos h]; exact nd
        · rw [if_neg h]; exact List.nodup_cons.2 ⟨h, nd⟩
      have ltr' : ∀ x ∈ tr', x < ts.length := by
        intro x hx
        rcases (hmem x).1 hx with rfl | hx
        · exact hk
        · exact ltr x hx
      have card : tr'.length ≤ ts.length := by
        have := (List.subperm_of_subset nd' (fun x hx => List.mem_range.2 (ltr' x hx))).length_le
        simpa using this
      apply ih
      · -- the measure
        by_cases h : k ∈ tr
        · have hl0 : l = [] := by
            apply List.eq_nil_iff_forall_not_mem.2
            intro x hx
            obtain ⟨ho, hn⟩ := (hl x).1 hx
            rcases above [] k rest rfl h x ho with h' | h'
            · exact hn ((hmem x).2 (.inr h'))
            · cases h'
          have : tr' = tr := by rw [htr', if_pos h]
          rw [this, hl0]
          simp only [List.length_cons, List.nil_append] at hf ⊢
          omega
        · have : tr'.length = tr.length + 1 := by rw [htr', if_neg h]; rfl
          simp only [List.length_cons, List.length_append] at hf ⊢
          omega
      · exact nd'
      · exact ltr'
      · intro x hx
        rcases List.mem_append.1 hx with hx | hx
        · exact valid _ _ ((hl x).1 hx).1
        · exact lst x (by simp [hx])
      · intro x hx
        rcases hx with hx | hx
        · rcases (hmem x).1 hx with rfl | hx
          · exact reach _ (.inr (by simp))
          · exact reach _ (.inl hx)
        · rcases List.mem_append.1 hx with hx | hx
          · exact (reach k (.inr (by simp))).tail ((hl x).1 hx).1
          · exact reach _ (.inr (by simp [hx]))
      · rcases hs with h | h
        · exact .inl ((hmem _).2 (.inr h))
        · rcases List.mem_cons.1 h with h | h
          · exact .inl ((hmem _).2 (.inl h))
          · exact .inr (List.mem_append_right _ h)
      · intro x hx y ho
        by_cases hy : y ∈ tr'
        · exact .inl hy
        · right
          rcases (hmem x).1 hx with rfl | hx
          · exact List.mem_append_left _ ((hl y).2 ⟨ho, hy⟩)
          · rcases closed x hx y ho with h | h
            · exact absurd ((hmem y).2 (.inr h)) hy
            · rcases List.mem_cons.1 h with h | h
              · exact absurd ((hmem y).2 (.inl h)) hy
              · exact List.mem_append_right _ h
      · intro l1 x l2 he hx y ho
        by_cases hy : y ∈ tr'
        · exact .inl hy
        · right
          rcases List.append_eq_append_iff.1 he with ⟨m, hm1, hm2⟩ | ⟨m, hm1, hm2⟩
          · -- `x` is in `rest`
            subst hm1
            rcases (hmem x).1 hx with rfl | hx'
            · exact List.mem_append_left _ ((hl y).2 ⟨ho, hy⟩)
            · rcases above (k :: m) x l2 (by rw [hm2]; rfl) hx' y ho with h | h
              · exact absurd ((hmem y).2 (.inr h)) hy
              · rcases List.mem_cons.1 h with h | h
                · exact absurd ((hmem y).2 (.inl h)) hy
                · exact List.mem_append_right _ h
          · cases m with
            | nil =>
              simp only [List.append_nil, List.nil_append] at hm1 hm2
              rcases (hmem x).1 hx with rfl | hx'
              · rw [← hm1]; exact (hl y).2 ⟨ho, hy⟩
              · rcases above [k] x l2 (by rw [← hm2]; rfl) hx' y ho with h | h
                · exact absurd ((hmem y).2 (.inr h)) hy
                · rw [List.mem_singleton] at h
                  exact absurd ((hmem y).2 (.inl h)) hy
            | cons z m =>
              simp only [List.cons_append, List.cons.injEq] at hm2
              obtain ⟨rfl, -⟩ := hm2
              have : x ∈ l := by rw [hm1]; simp
              exact absurd hx ((hl x).1 this).2

/-- From one triangle. -/
theorem grow_seed (valid : ∀ k k', Open fixed ts k k' → k' < ts.length) {seed : Nat} (hs : seed < ts.length) :
    ∃ r, grow fixed ts (3 * ts.length + 1) [seed] [] = some r ∧ r.Nodup ∧ ∀ k, k ∈ r ↔ Relation.ReflTransGen (Open fixed ts) seed k := by
  refine grow_spec valid seed _ [seed] [] (by simp) List.nodup_nil (by simp) (by simpa using hs) ?_ (by simp) (by simp) (by simp)
  intro k hk
  simp only [List.not_mem_nil, List.mem_singleton, false_or] at hk
  subst hk
  exact .refl

end Mcut.Cdt
