import Verif.Lemmas.C17
/-! # C17: parallel loops partition their range -/
namespace Mcut.Sched

/-- **C17.** For every non-empty range, thread count and minimum block size (whose sum does not exceed the 32-bit
range) the scheduler succeeds; the blocks handed to the task function are non-empty and in bounds, at most
`avail` many, and concatenating their index ranges gives `0,1,…,length-1` exactly: contiguous, disjoint,
covering everything exactly once and in order.
Missing: empty ranges and sums beyond 32 bits (C17_empty_range_fails, C17_wraps_fails). -/
theorem C17_blocks_partition_partial (length avail minPer : Nat) (hl : 0 < length) (ha : 0 < avail)
    (hm : 0 < minPer) (hov : length + minPer ≤ 2 ^ 32) :
    ∃ bs, parallelForBlocks length avail minPer = .ok bs ∧
      0 < bs.length ∧ bs.length ≤ avail ∧
      (∀ b ∈ bs, b.1 < b.2 ∧ b.2 ≤ length) ∧
      bs.flatMap (fun b => List.range' b.1 (b.2 - b.1)) = List.range length := by
  obtain ⟨p, hp, hpos, hle, hb, hbe, -⟩ := schedulingParams_ok length avail minPer hl ha hm hov
  refine ⟨blocksFrom 0 (p.numThreads - 1) p.blockSize length, ?_, ?_, ?_, ?_, ?_⟩
  · simp [parallelForBlocks, hp]
  · rw [blocksFrom_length]; omega
  · rw [blocksFrom_length]; omega
  · apply blocksFrom_nonempty _ _ _ _ hb
    have h1 : p.numThreads * p.blockSize ≤ length := by
      rw [hbe]; exact Nat.mul_div_le length p.numThreads
    have h2 : p.numThreads * p.blockSize = (p.numThreads - 1) * p.blockSize + p.blockSize := by
      have : p.numThreads = (p.numThreads - 1) + 1 := by omega
      rw [this, Nat.succ_mul]; simp
    omega
  · have h1 : p.numThreads * p.blockSize ≤ length := by
      rw [hbe]; exact Nat.mul_div_le length p.numThreads
    have h2 : p.numThreads * p.blockSize = (p.numThreads - 1) * p.blockSize + p.blockSize := by
      have : p.numThreads = (p.numThreads - 1) + 1 := by omega
      rw [this, Nat.succ_mul]; simp
    have := blocksFrom_flat 0 (p.numThreads - 1) p.blockSize length (by omega)
    unfold blockIndices at this
    rw [this, List.range_eq_range']; simp

/-- **C17 (schedule independence).** Whatever order the threads interleave in — any rearrangement of the
indices of the blocks — a loop body writing cell `i` with a value determined by `i` produces the result of the
sequential loop. -/
theorem C17_schedule_independent {α} (f : Nat → α) (arr : List α) (avail minPer : Nat)
    (bs : List (Nat × Nat)) (hl : 0 < arr.length) (ha : 0 < avail) (hm : 0 < minPer)
    (hov : arr.length + minPer ≤ 2 ^ 32)
    (hbs : parallelForBlocks arr.length avail minPer = .ok bs)
    (order : List Nat) (hperm : order.Perm (bs.flatMap blockIndices)) :
    writeAll f arr order = (List.range arr.length).map f := by
  obtain ⟨bs', h', -, -, -, hflat⟩ := C17_blocks_partition_partial arr.length avail minPer hl ha hm hov
  have : bs' = bs := by rw [hbs] at h'; injection h' with h; exact h.symm
  subst this
  have hmem : ∀ k, k ∈ order ↔ k < arr.length := by
    intro k
    have h1 := hperm.mem_iff (a := k)
    have h2 : bs'.flatMap blockIndices = List.range arr.length := hflat
    rw [h1, h2, List.mem_range]
  apply List.ext_getElem?
  intro k
  by_cases hk : k < arr.length
  · rw [writeAll_getElem? f arr order k hk]
    simp [hmem, hk]
  · rw [List.getElem?_eq_none (by rw [writeAll_length]; omega), List.getElem?_eq_none (by simp; omega)]

/-- The 32-bit guard is needed: close to `2^32` elements the rounding-up addition wraps and the code divides
by zero. -/
theorem C17_wraps_fails : parallelForBlocks (2 ^ 32 - 1) 4 1024 = .error .divByZero := by decide

/-- The empty range is not handled by the scheduler (callers must not pass it; `MCUT_ASSERT` is compiled out). -/
theorem C17_empty_range_fails (avail minPer : Nat) (hm : 0 < minPer) (hov : minPer ≤ 2 ^ 32) :
    parallelForBlocks 0 avail minPer = .error .divByZero := by
  have h1 : (0 + minPer - 1) % 2 ^ 32 = minPer - 1 := by rw [Nat.mod_eq_of_lt] <;> omega
  have h2 : (minPer - 1) / minPer = 0 := Nat.div_eq_of_lt (by omega)
  unfold parallelForBlocks schedulingParams
  rw [if_neg (by omega), h1, h2]
  simp

-- non-vacuity: 2500 elements on 4 threads, default granularity, give 3 blocks
example : 0 < 2500 ∧ 0 < 4 ∧ 0 < 1024 ∧ 2500 + 1024 ≤ 2 ^ 32 ∧
    parallelForBlocks 2500 4 1024 = .ok [(0, 833), (833, 1666), (1666, 2500)] := by decide
example : ∃ bs, parallelForBlocks 3 2 1 = .ok bs ∧
    [1, 0, 2].Perm (bs.flatMap blockIndices) := ⟨[(0, 1), (1, 3)], by decide, by decide⟩

end Mcut.Sched
