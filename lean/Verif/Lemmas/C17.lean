import Verif.Model.Sched
/-! Helper lemmas for the property file of the same name. -/
namespace Mcut.Sched

theorem blocksFrom_length (start w block last : Nat) :
    (blocksFrom start w block last).length = w + 1 := by
  induction w generalizing start with
  | zero => simp [blocksFrom]
  | succ w ih => simp [blocksFrom, ih]

theorem blocksFrom_flat (start w block last : Nat) (h : start + w * block ≤ last) :
    (blocksFrom start w block last).flatMap blockIndices = List.range' start (last - start) := by
  induction w generalizing start with
  | zero => simp [blocksFrom, blockIndices]
  | succ w ih =>
    rw [Nat.succ_mul] at h
    have := ih (start + block) (by omega)
    simp only [blocksFrom, List.flatMap_cons, this, blockIndices]
    rw [Nat.add_sub_cancel_left, List.range'_append_1]
    congr 1; omega

theorem blocksFrom_nonempty (start w block last : Nat) (hb : 0 < block)
    (h : start + w * block < last) :
    ∀ b ∈ blocksFrom start w block last, b.1 < b.2 ∧ b.2 ≤ last := by
  induction w generalizing start with
  | zero => simp [blocksFrom]; omega
  | succ w ih =>
    rw [Nat.succ_mul] at h
    intro b hm
    simp only [blocksFrom, List.mem_cons] at hm
    rcases hm with rfl | hm
    · simp; omega
    · exact ih (start + block) (by omega) b hm

theorem schedulingParams_ok (length avail minPer : Nat) (hl : 0 < length) (ha : 0 < avail)
    (hm : 0 < minPer) (hov : length + minPer ≤ 2 ^ 32) :
    ∃ p, schedulingParams length avail minPer = .ok p ∧ 0 < p.numThreads ∧ p.numThreads ≤ avail ∧
      0 < p.blockSize ∧ p.blockSize = length / p.numThreads ∧
      p.numThreads ≤ (length + minPer - 1) / minPer := by
  have h1 : (length + minPer - 1) % 2 ^ 32 = length + minPer - 1 := Nat.mod_eq_of_lt (by omega)
  have h2 : 0 < (length + minPer - 1) / minPer := Nat.div_pos (by omega) hm
  have h3 : (length + minPer - 1) / minPer ≤ length := by
    apply Nat.le_of_lt_succ
    rw [Nat.div_lt_iff_lt_mul hm, Nat.succ_mul]
    have : length ≤ length * minPer := Nat.le_mul_of_pos_right _ hm
    omega
  unfold schedulingParams
  rw [if_neg (by omega), h1]
  simp only [ne_eq]
  have ha' : avail ≠ 0 := by omega
  simp only [ha', not_false_eq_true, if_true]
  have hn : 0 < min avail ((length + minPer - 1) / minPer) := by omega
  have hb : 0 < length / min avail ((length + minPer - 1) / minPer) :=
    Nat.div_pos (by omega) hn
  rw [if_neg (by omega), if_neg (by omega), if_neg (by omega), if_neg (by omega)]
  exact ⟨_, rfl, by simp; omega, by simp; omega, hb, rfl, by simp; omega⟩

theorem writeAll_getElem? {α} (f : Nat → α) (arr : List α) (order : List Nat) (k : Nat)
    (hk : k < arr.length) :
    (writeAll f arr order)[k]? = if k ∈ order then some (f k) else arr[k]? := by
  induction order generalizing arr with
  | nil => simp [writeAll]
  | cons i is ih =>
    have := ih (arr.set i (f i)) (by simpa using hk)
    simp only [writeAll, List.foldl_cons] at this ⊢
    rw [this]
    by_cases h : k ∈ is
    · simp [h]
    · by_cases h2 : i = k
      · subst h2; simp [h, hk]
      · simp [h, h2]; intro h3; exact absurd h3.symm h2

theorem writeAll_length {α} (f : Nat → α) (arr : List α) (order : List Nat) :
    (writeAll f arr order).length = arr.length := by
  induction order generalizing arr with
  | nil => rfl
  | cons i is ih => have := ih (arr.set i (f i)); simp only [writeAll, List.foldl_cons] at this ⊢; simpa using this

end Mcut.Sched
