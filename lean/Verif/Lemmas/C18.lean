import Verif.Model.PrefixSum
import Verif.Lemmas.C17
import Verif.Spec.PrefixSum
/-! Helper lemmas for the property file of the same name. -/
namespace Mcut.PrefixSum
open Mcut.Spec Mcut.Sched

theorem total_cons (x : W) (xs : List W) : total (x :: xs) = x + total xs := rfl

theorem total_append (xs ys : List W) : total (xs ++ ys) = total xs + total ys := by
  induction xs with
  | nil => simp [total]
  | cons x xs ih => simp only [List.cons_append, total_cons, ih, BitVec.add_assoc]

theorem prefixSums_length (xs : List W) : (prefixSums xs).length = xs.length := by simp [prefixSums]

theorem prefixSums_append (xs ys : List W) :
    prefixSums (xs ++ ys) = prefixSums xs ++ (prefixSums ys).map (· + total xs) := by
  apply List.ext_getElem?
  intro k
  simp only [prefixSums, List.getElem?_append, List.length_map, List.length_range, List.length_append,
    List.getElem?_map, List.map_map]
  by_cases h : k < xs.length
  · have h2 : k < xs.length + ys.length := by omega
    simp [h, h2, List.take_append_of_le_length (show k + 1 ≤ xs.length by omega)]
  · simp only [h, if_false]
    by_cases h2 : k < xs.length + ys.length
    · have h3 : k - xs.length < ys.length := by omega
      simp only [List.getElem?_range h2, List.getElem?_range h3, Option.map_some]
      congr 1
      rw [List.take_append, List.take_of_length_le (by omega), total_append]
      have : k + 1 - xs.length = k - xs.length + 1 := by omega
      rw [this]; simp [BitVec.add_comm]
    · rw [List.getElem?_eq_none (by simp; omega), List.getElem?_eq_none (by simp; omega)]; rfl

theorem partialSumLoop_eq (sum : W) (xs : List W) :
    partialSumLoop sum xs = (prefixSums xs).map (sum + ·) := by
  induction xs generalizing sum with
  | nil => rfl
  | cons x xs ih =>
    have h := prefixSums_append [x] xs
    have h1 : prefixSums [x] = [x] := by simp [prefixSums, total]
    simp only [List.singleton_append] at h
    rw [partialSumLoop, ih, h, h1]
    simp only [List.singleton_append, List.map_cons, List.map_map]
    congr 1
    apply List.map_congr_left
    intro a _
    simp [total, BitVec.add_assoc, BitVec.add_comm a x]

theorem partialSum_eq (xs : List W) : partialSum xs = prefixSums xs := by
  cases xs with
  | nil => rfl
  | cons x xs =>
    have h := prefixSums_append [x] xs
    have h1 : prefixSums [x] = [x] := by simp [prefixSums, total]
    simp only [List.singleton_append] at h
    rw [partialSum, partialSumLoop_eq, h, h1]
    simp only [List.singleton_append]
    congr 1
    apply List.map_congr_left
    intro a _
    simp [total, BitVec.add_comm]

/-- Sum of everything before chunk `i`. -/
def off (c : Nat → List W) (i : Nat) : W := total ((List.range i).flatMap c)

theorem off_succ (c : Nat → List W) (i : Nat) : off c (i + 1) = off c i + total (c i) := by
  simp [off, List.range_succ, total_append]

theorem getLast?_prefixSums (xs : List W) (h : xs ≠ []) :
    (prefixSums xs).getLast? = some (total xs) := by
  have hl : 0 < xs.length := List.length_pos_iff.mpr h
  rw [List.getLast?_eq_getElem?]
  simp only [prefixSums, List.length_map, List.length_range, List.getElem?_map]
  rw [List.getElem?_range (by omega)]
  simp only [Option.map_some]
  congr 2
  rw [List.take_of_length_le (by omega)]

/-- What thread `i`'s part of the state looks like. -/
def Good (c : Nat → List W) (n : Nat) (s : St) (i : Nat) : Prop :=
  match s.pc i with
  | .start => s.data i = c i ∧ s.endv i = none
  | .scanned => s.data i = prefixSums (c i) ∧ s.endv i = none
  | .adding k a => i ≠ 0 ∧ a = off c i ∧ k < (c i).length ∧
      (∀ j, (s.data i)[j]? =
        if j < k ∨ j + 1 = (c i).length then ((prefixSums (c i)).map (· + off c i))[j]? else (prefixSums (c i))[j]?) ∧
      (i + 1 < n → s.endv i = some (off c (i + 1)))
  | .done => s.data i = (prefixSums (c i)).map (· + off c i) ∧ (i + 1 < n → s.endv i = some (off c (i + 1)))

def Inv (c : Nat → List W) (n : Nat) (s : St) : Prop := ∀ i, i < n → Good c n s i

theorem length_of_getElem? {α} (l m : List α) (h : ∀ j : Nat, l[j]?.isSome = m[j]?.isSome) : l.length = m.length := by
  rcases Nat.lt_trichotomy l.length m.length with h1 | h1 | h1
  · have := h l.length; simp [h1] at this
  · exact h1
  · have := h m.length; simp [h1] at this

theorem adding_length (c : Nat → List W) (n : Nat) (s : St) (i k : Nat) (a : W) (hpc : s.pc i = .adding k a)
    (h : Good c n s i) : (s.data i).length = (c i).length := by
  simp only [Good, hpc] at h
  rw [← prefixSums_length (c i)]
  apply length_of_getElem?
  intro j
  rw [h.2.2.2.1 j]
  split <;> simp

theorem good_endv (c : Nat → List W) (n : Nat) (s : St) (i : Nat) (a : W) (hn : i + 1 < n) (h : Good c n s i)
    (he : s.endv i = some a) : a = off c (i + 1) := by
  unfold Good at h
  split at h
  · rw [h.2] at he; cases he
  · rw [h.2] at he; cases he
  · have := h.2.2.2.2 hn; rw [this] at he; cases he; rfl
  · have := h.2 hn; rw [this] at he; cases he; rfl

theorem inv_init (c : Nat → List W) (n : Nat) : Inv c n (init c) := by
  intro i _; simp [Good, init]

/-- A step of thread `i` does not disturb thread `j`'s view. -/
theorem good_frame (c : Nat → List W) (n : Nat) (s s' : St) (j : Nat) (h1 : s'.pc j = s.pc j)
    (h2 : s'.data j = s.data j) (h3 : s'.endv j = s.endv j) (h : Good c n s j) : Good c n s' j := by
  unfold Good at *; rw [h1, h2, h3]; exact h

theorem inv_step (c : Nat → List W) (n : Nat) (hc : ∀ i, i < n → c i ≠ []) (s : St) (i : Nat) (s' : St)
    (hinv : Inv c n s) (hs : step n s i = some s') : Inv c n s' := by
  unfold step at hs
  split at hs
  case isFalse => cases hs
  case isTrue hi =>
  have hg := hinv i hi
  have hci := hc i hi
  have hlen : 0 < (c i).length := List.length_pos_iff.mpr hci
  intro j hj
  split at hs
  · -- start
    rename_i hpc
    cases hs
    by_cases hji : j = i
    · subst hji
      simp only [Good, hpc] at hg
      simp [Good, hg.1, hg.2, partialSum_eq]
    · exact good_frame c n s _ j (upd_other _ _ _ _ hji) (upd_other _ _ _ _ hji) rfl (hinv j hj)
  · -- scanned
    rename_i hpc
    simp only [Good, hpc] at hg
    split at hs
    · -- thread 0
      rename_i h0
      cases hs
      by_cases hji : j = i
      · subst hji h0
        have ho : off c 0 = 0#32 := by simp [off, total]
        simp only [Good, upd_same, ho]
        refine ⟨by simp [hg.1], fun hn => ?_⟩
        rw [if_pos hn, upd_same, hg.1, getLast?_prefixSums _ hci, off_succ, ho]; simp
      · refine good_frame c n s _ j (upd_other _ _ _ _ hji) rfl ?_ (hinv j hj)
        simp only; split
        · exact upd_other _ _ _ _ hji
        · rfl
    · rename_i h0
      split at hs
      · cases hs
      · rename_i a ha
        have haoff : a = off c i := by
          have hi1 : i - 1 < n := by omega
          have := good_endv c n s (i - 1) a (by omega) (hinv (i - 1) hi1) ha
          rw [this]; congr 1; omega
        cases hs
        by_cases hji : j = i
        · subst hji
          have hdl : (s.data j).length = (c j).length := by rw [hg.1, prefixSums_length]
          have hlast : ((s.data j).modify ((s.data j).length - 1) (· + a)).getLast? = some (off c (j + 1)) := by
            rw [List.getLast?_eq_getElem?, List.length_modify, List.getElem?_modify_eq,
              ← List.getLast?_eq_getElem?, hg.1, getLast?_prefixSums _ hci, off_succ]
            simp [haoff, BitVec.add_comm]
          simp only [Good, upd_same]
          refine ⟨h0, haoff, hlen, ?_, fun hn => ?_⟩
          · intro m
            rw [List.getElem?_modify, hdl, hg.1]
            by_cases hm : m + 1 = (c j).length
            · have : (c j).length - 1 = m := by omega
              simp [hm, this, haoff]
            · have : ¬ (c j).length - 1 = m := by omega
              simp [hm, this]
          · rw [if_pos hn, upd_same]; exact hlast
        · refine good_frame c n s _ j (upd_other _ _ _ _ hji) (upd_other _ _ _ _ hji) ?_ (hinv j hj)
          simp only; split
          · exact upd_other _ _ _ _ hji
          · rfl
  · -- adding
    rename_i k a hpc
    have hdl := adding_length c n s i k a hpc hg
    simp only [Good, hpc] at hg
    obtain ⟨hi0, ha, hk, hd, he⟩ := hg
    split at hs
    · rename_i hk1
      cases hs
      by_cases hji : j = i
      · subst hji
        simp only [Good, upd_same]
        refine ⟨hi0, ha, by omega, ?_, he⟩
        intro m
        rw [List.getElem?_modify, hd m]
        by_cases hkm : k = m
        · subst hkm
          have h1 : ¬ (k < k ∨ k + 1 = (c j).length) := by omega
          have h2 : (k < k + 1 ∨ k + 1 = (c j).length) := by omega
          simp only [if_neg h1, if_pos h2]
          simp [ha]
        · simp only [hkm, if_false]
          by_cases hm : m < k ∨ m + 1 = (c j).length
          · have : m < k + 1 ∨ m + 1 = (c j).length := by omega
            simp [hm, this]
          · have : ¬ (m < k + 1 ∨ m + 1 = (c j).length) := by omega
            simp [hm, this]
      · exact good_frame c n s _ j (upd_other _ _ _ _ hji) (upd_other _ _ _ _ hji) rfl (hinv j hj)
    · rename_i hk1
      cases hs
      by_cases hji : j = i
      · subst hji
        simp only [Good, upd_same]
        refine ⟨?_, he⟩
        apply List.ext_getElem?
        intro m
        rw [hd m]
        by_cases hm : m < k ∨ m + 1 = (c j).length
        · rw [if_pos hm]
        · rw [if_neg hm, List.getElem?_eq_none (by rw [prefixSums_length]; omega),
            List.getElem?_eq_none (by rw [List.length_map, prefixSums_length]; omega)]
      · exact good_frame c n s _ j (upd_other _ _ _ _ hji) rfl rfl (hinv j hj)
  · cases hs

theorem flat_done (c : Nat → List W) (n : Nat) :
    (List.range n).flatMap (fun i => (prefixSums (c i)).map (· + off c i)) =
      prefixSums ((List.range n).flatMap c) := by
  induction n with
  | zero => rfl
  | succ n ih =>
    simp only [List.range_succ, List.flatMap_append, List.flatMap_cons, List.flatMap_nil, List.append_nil, ih,
      prefixSums_append]
    rfl

theorem reach_inv (c : Nat → List W) (n : Nat) (hc : ∀ i, i < n → c i ≠ []) (s : St)
    (hr : Reach (step n) (init c) s) : Inv c n s :=
  Reach.inv (inv_step c n hc) (inv_init c n) hr

/-- Remaining steps of one thread. -/
def work (len : Nat) : PC → Nat
  | .start => len + 2
  | .scanned => len + 1
  | .adding k _ => len - k
  | .done => 0

/-- Total remaining steps. -/
def workAll (c : Nat → List W) (s : St) : Nat → Nat
  | 0 => 0
  | n + 1 => workAll c s n + work (c n).length (s.pc n)

theorem workAll_congr (c : Nat → List W) (s s' : St) (n : Nat) (h : ∀ j, j < n → s'.pc j = s.pc j) :
    workAll c s' n = workAll c s n := by
  induction n with
  | zero => rfl
  | succ n ih => simp only [workAll]; rw [ih (fun j hj => h j (by omega)), h n (by omega)]

theorem workAll_upd (c : Nat → List W) (s s' : St) (n i : Nat) (hi : i < n)
    (ho : ∀ j, j ≠ i → s'.pc j = s.pc j) (hw : work (c i).length (s'.pc i) < work (c i).length (s.pc i)) :
    workAll c s' n < workAll c s n := by
  induction n with
  | zero => omega
  | succ n ih =>
    simp only [workAll]
    by_cases h : i = n
    · subst h
      rw [workAll_congr c s s' i (fun j hj => ho j (by omega))]; omega
    · have := ih (by omega)
      rw [ho n (fun h' => h h'.symm)]; omega

theorem step_work (c : Nat → List W) (n : Nat) (hc : ∀ i, i < n → c i ≠ []) (s : St) (i : Nat) (s' : St)
    (hinv : Inv c n s) (hs : step n s i = some s') : workAll c s' n < workAll c s n := by
  unfold step at hs
  split at hs
  case isFalse => cases hs
  case isTrue hi =>
  have hg := hinv i hi
  have hlen : 0 < (c i).length := List.length_pos_iff.mpr (hc i hi)
  apply workAll_upd c s s' n i hi
  · intro j hj
    split at hs
    · cases hs; exact upd_other _ _ _ _ hj
    · split at hs
      · cases hs; exact upd_other _ _ _ _ hj
      · split at hs
        · cases hs
        · cases hs; exact upd_other _ _ _ _ hj
    · split at hs <;> · cases hs; exact upd_other _ _ _ _ hj
    · cases hs
  · split at hs
    · rename_i hpc; cases hs; simp [work, hpc]
    · rename_i hpc
      split at hs
      · cases hs; simp [work, hpc]
      · split at hs
        · cases hs
        · cases hs; simp [work, hpc]
    · rename_i k a hpc
      have hdl := adding_length c n s i k a hpc hg
      simp only [Good, hpc] at hg
      split at hs
      · cases hs; simp only [work, hpc, upd_same]; omega
      · cases hs; simp only [work, hpc, upd_same]; omega
    · cases hs

/-- Three chunks `[1] [1,1] [1]`. -/
def exChunks : Nat → List W := fun i => if i = 1 then [1, 1] else [1]

theorem chunksOf_flat (xs : List W) (start w block : Nat) (h : start + w * block < xs.length) (hb : 0 < block) :
    (List.range (w + 1)).flatMap (chunksOf xs (blocksFrom start w block xs.length)) = xs.drop start ∧
    ∀ i, i < w + 1 → chunksOf xs (blocksFrom start w block xs.length) i ≠ [] := by
  induction w generalizing start with
  | zero =>
    constructor
    · simp only [blocksFrom, chunksOf, Nat.zero_add, List.range_one, List.flatMap_cons, List.flatMap_nil,
        List.getElem?_cons_zero, List.append_nil]
      rw [List.take_of_length_le (by simp)]
    · intro i hi
      have : i = 0 := by omega
      subst this
      simp [blocksFrom, chunksOf]; omega
  | succ w ih =>
    rw [Nat.succ_mul] at h
    obtain ⟨h1, h2⟩ := ih (start + block) (by omega)
    have hshift : ∀ i, chunksOf xs (blocksFrom start (w + 1) block xs.length) (i + 1) =
        chunksOf xs (blocksFrom (start + block) w block xs.length) i := by
      intro i; simp [chunksOf, blocksFrom]
    have h0 : chunksOf xs (blocksFrom start (w + 1) block xs.length) 0 = (xs.drop start).take block := by
      simp [chunksOf, blocksFrom]
    constructor
    · rw [List.range_succ_eq_map, List.flatMap_cons, List.flatMap_map]
      simp only [hshift, h0]
      rw [h1, ← List.drop_drop, List.take_append_drop]
    · intro i hi
      cases i with
      | zero => rw [h0]; intro hnil; have := congrArg List.length hnil; simp at this; omega
      | succ i => rw [hshift]; exact h2 i (by omega)

end Mcut.PrefixSum
