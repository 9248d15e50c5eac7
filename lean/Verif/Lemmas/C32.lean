import Verif.Spec.C32

/-! Helper lemmas for `Props/C32.lean`. -/
namespace Mcut.Hmesh
variable {P : Type}

theorem skipRemoved_spec (rem : List Nat) (size : Nat) : ∀ (k i : Nat), size - i = k → i ≤ size →
    i ≤ skipRemoved rem size i ∧ skipRemoved rem size i ≤ size ∧ (∀ j, i ≤ j → j < skipRemoved rem size i → j ∈ rem) ∧
    (skipRemoved rem size i < size → skipRemoved rem size i ∉ rem) := by
  intro k
  induction k with
  | zero =>
    intro i hk hi
    have : i = size := by omega
    subst this
    unfold skipRemoved
    rw [if_neg (by omega)]
    exact ⟨Nat.le_refl _, Nat.le_refl _, fun j a b => by omega, fun h => by omega⟩
  | succ k ih =>
    intro i hk hi
    unfold skipRemoved
    rw [if_pos (by omega)]
    by_cases hc : rem.contains i = true
    · rw [if_pos hc]
      obtain ⟨a, b, c, d⟩ := ih (i + 1) (by omega) (by omega)
      refine ⟨by omega, b, fun j hj hj2 => ?_, d⟩
      by_cases hji : j = i
      · subst hji; simpa using hc
      · exact c j (by omega) hj2
    · rw [if_neg hc]
      exact ⟨Nat.le_refl _, hi, fun j a b => by omega, fun _ => by simpa using hc⟩

theorem enumerate_eq (rem : List Nat) (size : Nat) : ∀ (k i : Nat), size - i = k → i ≤ size →
    enumerateFrom rem size i = (List.range' i (size - i)).filter (fun x => decide (x ∉ rem)) := by
  intro k
  induction k using Nat.strong_induction_on with
  | _ k ih =>
    intro i hk hi
    obtain ⟨a, b, c, d⟩ := skipRemoved_spec rem size k i hk hi
    generalize hs : skipRemoved rem size i = s at *
    unfold enumerateFrom
    rw [hs]
    -- split the range at `s`
    have hsplit : List.range' i (size - i) = List.range' i (s - i) ++ List.range' s (size - s) := by
      have h1 : size - i = (s - i) + (size - s) := by omega
      rw [h1]
      have := @List.range'_append i (s - i) (size - s) 1
      rw [show i + 1 * (s - i) = s by omega] at this
      exact this.symm
    have hfirst : (List.range' i (s - i)).filter (fun x => decide (x ∉ rem)) = [] := by
      rw [List.filter_eq_nil_iff]
      intro x hx
      rw [List.mem_range'_1] at hx
      simpa using c x hx.1 (by omega)
    rw [hsplit, List.filter_append, hfirst, List.nil_append]
    by_cases hlt : s < size
    · rw [if_pos hlt, if_pos a, ih (size - (s + 1)) (by omega) (s + 1) rfl (by omega)]
      rw [show size - s = (size - (s + 1)) + 1 by omega, List.range'_succ, List.filter_cons]
      simp [d hlt]
    · rw [if_neg hlt]
      have : size - s = 0 := by omega
      rw [this]; rfl

theorem count_live (rem : List Nat) (size : Nat) (hnd : rem.Nodup) (hlt : ∀ x ∈ rem, x < size) :
    ((List.range size).filter (fun x => decide (x ∉ rem))).length = size - rem.length := by
  have h1 : ((List.range size).filter (fun x => decide (x ∈ rem))).length = rem.length := by
    apply List.Perm.length_eq
    rw [List.perm_ext_iff_of_nodup (List.nodup_range.filter _) hnd]
    intro x
    rw [List.mem_filter, List.mem_range]
    simp only [decide_eq_true_eq]
    exact ⟨fun h => h.2, fun h => ⟨hlt x h, h⟩⟩
  have h2 := List.length_eq_length_filter_add (l := List.range size) (fun x => decide (x ∈ rem))
  rw [List.length_range, h1] at h2
  have h3 : (List.range size).filter (fun x => decide (x ∉ rem)) = (List.range size).filter (fun x => !decide (x ∈ rem)) := by
    apply List.filter_congr; intro x _; simp
  rw [h3]; omega

theorem pairs_nodup (l : List Nat) (h : l.Nodup) : (l.flatMap pair).Nodup := by
  induction l with
  | nil => simp
  | cons e l ih =>
    rw [List.nodup_cons] at h
    rw [List.flatMap_cons, List.nodup_append]
    refine ⟨by simp [pair], ih h.2, ?_⟩
    intro a ha b hb
    rw [mem_pairs] at hb
    rintro rfl
    have : a / 2 = e := by
      simp only [pair, List.mem_cons, List.not_mem_nil, or_false] at ha
      omega
    rw [this] at hb
    exact h.1 hb

theorem WF.hRem_nd {m : Mesh P} (W : WF m) : m.hRem.Nodup := by
  rw [W.hRem_eq]
  exact pairs_nodup m.eRem W.eRem_nd

theorem enum_live (rem : List Nat) (size : Nat) : enumerateFrom rem size 0 = liveList size rem := by
  rw [enumerate_eq rem size size 0 rfl (Nat.zero_le _), liveList, List.range_eq_range']; rfl

end Mcut.Hmesh
