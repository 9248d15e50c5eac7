import Verif.Lemmas.C18
/-! # C18: parallel prefix sums -/
namespace Mcut.PrefixSum
open Mcut.Spec Mcut.Sched

/-- **C18 (sequential).** `partial_sum` computes the inclusive prefix sums. -/
theorem C18_sequential (xs : List (BitVec 32)) : partialSum xs = prefixSums xs := partialSum_eq xs

/-- **C18 (result once every thread has finished).** For every number of threads, every division into non-empty
chunks and every interleaving: when all threads have finished, the array holds exactly the inclusive prefix sums of
the input. Missing for the full property: the call returns when the *master* has finished, see
`C18_return_too_early_fails`. -/
theorem C18_all_done_partial (c : Nat → List (BitVec 32)) (n : Nat) (hc : ∀ i, i < n → c i ≠ []) (s : St)
    (hr : Reach (step n) (init c) s) (hd : ∀ i, i < n → s.pc i = .done) :
    memory n s = prefixSums ((List.range n).flatMap c) := by
  have hinv := reach_inv c n hc s hr
  rw [← flat_done]
  unfold memory
  rw [List.flatMap_def, List.flatMap_def]
  congr 1
  apply List.map_congr_left
  intro i hi
  have hi' : i < n := List.mem_range.mp hi
  have h := hinv i hi'
  simp only [Good, hd i hi'] at h
  exact h.1

/-- **C18 (no deadlock).** As long as some thread has not finished, some thread can make a step. -/
theorem C18_no_deadlock (c : Nat → List (BitVec 32)) (n : Nat) (hc : ∀ i, i < n → c i ≠ []) (s : St)
    (hr : Reach (step n) (init c) s) (hnd : ∃ i, i < n ∧ s.pc i ≠ .done) :
    ∃ i s', step n s i = some s' := by
  have hinv := reach_inv c n hc s hr
  -- the least unfinished thread can move
  have : ∃ i, (i < n ∧ s.pc i ≠ .done) ∧ ∀ j, j < i → s.pc j = .done := by
    obtain ⟨i, hi⟩ := hnd
    induction i using Nat.strongRecOn with
    | _ i ih =>
      by_cases h : ∀ j, j < i → s.pc j = .done
      · exact ⟨i, hi, h⟩
      · have h' : ∃ j, j < i ∧ s.pc j ≠ .done := by
          apply Classical.byContradiction; intro hcon; apply h; intro j hj
          apply Classical.byContradiction; intro h2; exact hcon ⟨j, hj, h2⟩
        obtain ⟨j, hj, hp⟩ := h'
        exact ih j hj ⟨by omega, hp⟩
  obtain ⟨i, ⟨hi, hp⟩, hlt⟩ := this
  refine ⟨i, ?_⟩
  unfold step
  rw [if_pos hi]
  cases hpc : s.pc i with
  | start => simp
  | scanned =>
    by_cases h0 : i = 0
    · simp [h0]
    · have h1 := hinv (i - 1) (by omega)
      have h2 := hlt (i - 1) (by omega)
      simp only [Good, h2] at h1
      have h3 := h1.2 (by omega)
      simp [h0, h3]
  | adding k a => simp only; split <;> simp
  | done => exact absurd hpc hp

/-- **C18 (termination).** Every schedule is finite: a run has at most `Σ (chunk length + 2)` steps. Together with
`C18_no_deadlock` every maximal run ends with all threads finished. -/
theorem C18_terminates (c : Nat → List (BitVec 32)) (n : Nat) (hc : ∀ i, i < n → c i ≠ []) (sched : List Nat) (s : St)
    (hr : runSched (step n) (init c) sched = some s) :
    sched.length ≤ ((List.range n).map (fun i => (c i).length + 2)).sum := by
  have key : ∀ (sched : List Nat) (s0 s : St), Inv c n s0 → runSched (step n) s0 sched = some s →
      sched.length + workAll c s n ≤ workAll c s0 n := by
    intro sched
    induction sched with
    | nil => intro s0 s _ h; simp [runSched] at h; subst h; simp
    | cons i is ih =>
      intro s0 s hinv h
      simp only [runSched] at h
      cases hs : step n s0 i with
      | none => simp [hs] at h
      | some s1 =>
        simp only [hs, Option.bind_some] at h
        have h1 := ih s1 s (inv_step c n hc s0 i s1 hinv hs) h
        have h2 := step_work c n hc s0 i s1 hinv hs
        simp only [List.length_cons]; omega
  have h := key sched (init c) s (inv_init c n) hr
  have hw : ∀ n, workAll c (init c) n = ((List.range n).map (fun i => (c i).length + 2)).sum := by
    intro n
    induction n with
    | zero => rfl
    | succ n ih => 
      simp only [workAll, ih, List.range_succ, List.map_append, List.sum_append, List.map_cons, List.map_nil]
      simp [work, init]
  rw [← hw]; omega

/-- **C18 for one or two threads.** With at most two threads (one helper) the array is complete when the call
returns. -/
theorem C18_at_return_partial (c : Nat → List (BitVec 32)) (n : Nat) (hn : 0 < n) (hn2 : n ≤ 2)
    (hc : ∀ i, i < n → c i ≠ []) (s : St)
    (hr : Reach (step n) (init c) s) (hret : returned n s) :
    memory n s = prefixSums ((List.range n).flatMap c) := by
  -- extra invariant: when thread 1 is past `get()`, thread 0 is done
  have hinv := reach_inv c n hc s hr
  have h2 : (∀ k a, s.pc 1 = .adding k a → s.pc 0 = .done) ∧ (s.pc 1 = .done → n = 2 → s.pc 0 = .done) ∧
      (∀ a, s.endv 0 = some a → s.pc 0 = .done) := by
    refine Reach.inv (P := fun s => (∀ k a, s.pc 1 = .adding k a → s.pc 0 = .done) ∧
      (s.pc 1 = .done → n = 2 → s.pc 0 = .done) ∧ (∀ a, s.endv 0 = some a → s.pc 0 = .done)) ?_ ?_ hr
    · intro s i s' ⟨h1, h2, h3⟩ hs
      unfold step at hs
      split at hs
      case isFalse => cases hs
      case isTrue hi =>
      have hi2 : i = 0 ∨ i = 1 := by omega
      rcases hi2 with rfl | rfl
      · split at hs
        · rename_i hpc; cases hs
          refine ⟨fun k a h => ?_, fun h hn => ?_, fun a h => ?_⟩
          · have := h1 k a (by simpa [upd] using h); rw [hpc] at this; cases this
          · have := h2 (by simpa [upd] using h) hn; rw [hpc] at this; cases this
          · have := h3 a h; rw [hpc] at this; cases this
        · simp at hs; cases hs; simp
        · rename_i hpc
          split at hs <;> cases hs
          · refine ⟨fun k a h => ?_, fun h hn => ?_, fun a h => ?_⟩
            · have := h1 k a (by simpa [upd] using h); rw [hpc] at this; cases this
            · have := h2 (by simpa [upd] using h) hn; rw [hpc] at this; cases this
            · have := h3 a h; rw [hpc] at this; cases this
          · simp
        · cases hs
      · split at hs
        · rename_i hpc; cases hs; simp [upd]; exact h3
        · rename_i hpc
          simp only [Nat.one_ne_zero, if_false] at hs
          split at hs
          · cases hs
          · rename_i a ha; cases hs
            have := h3 a ha
            refine ⟨by simp [upd, this], by simp [upd, this], by simp [upd, this]⟩
        · rename_i k a hpc
          have := h1 k a hpc
          split at hs <;> cases hs <;> simp [upd, this]
        · cases hs
    · simp [init]
  refine C18_all_done_partial c n hc s hr ?_
  intro i hi
  unfold returned at hret
  have : n = 1 ∨ n = 2 := by omega
  rcases this with rfl | rfl
  · have : i = 0 := by omega
    subst this; exact hret
  · have : i = 0 ∨ i = 1 := by omega
    rcases this with rfl | rfl
    · exact h2.2.1 hret rfl
    · exact hret

/-- **C18 is violated by the code with three or more threads.** There is an interleaving in which the call has returned
(the master is done) while a worker is still adding: the caller sees `[1,1,3,4]` instead of `[1,2,3,4]`. -/
theorem C18_return_too_early_fails :
    ∃ s, Reach (step 3) (init exChunks) s ∧ returned 3 s ∧
      memory 3 s ≠ prefixSums ((List.range 3).flatMap exChunks) := by
  let sched := [0, 0, 1, 1, 2, 2, 2]
  cases h : runSched (step 3) (init exChunks) sched with
  | none =>
    have : (runSched (step 3) (init exChunks) sched).isSome = true := by decide
    rw [h] at this; cases this
  | some s =>
    refine ⟨s, ⟨sched, h⟩, ?_, ?_⟩
    · have : ((runSched (step 3) (init exChunks) sched).map (fun s => s.pc 2)) = some .done := by decide
      rw [h] at this; injection this
    · have : ((runSched (step 3) (init exChunks) sched).map (fun s => memory 3 s)) = some [1, 1, 3, 4] := by decide
      rw [h] at this
      have h1 : memory 3 s = [1, 1, 3, 4] := by injection this
      rw [h1]; decide

/-- **C18 at the level of the call** `parallel_partial_sum(pool, begin, end)` on an array of any non-zero length
(below 2^32-1024) and any pool size: for every interleaving the finished array is the array of prefix sums. -/
theorem C18_call_partial (xs : List (BitVec 32)) (avail : Nat) (ha : 0 < avail) (hl : 0 < xs.length)
    (hov : xs.length + 1024 ≤ 2 ^ 32) :
    ∃ bs, parallelForBlocks xs.length avail 1024 = .ok bs ∧ 0 < bs.length ∧
      ∀ s, Reach (step bs.length) (init (chunksOf xs bs)) s →
        (allDone bs.length s → memory bs.length s = prefixSums xs) ∧
        (bs.length ≤ 2 → returned bs.length s → memory bs.length s = prefixSums xs) := by
  obtain ⟨p, hp, hpos, hle, hb, hbe, -⟩ := schedulingParams_ok xs.length avail 1024 hl ha (by omega) hov
  refine ⟨blocksFrom 0 (p.numThreads - 1) p.blockSize xs.length, by simp [parallelForBlocks, hp], ?_, ?_⟩
  · rw [blocksFrom_length]; omega
  · have h1 : p.numThreads * p.blockSize ≤ xs.length := by
      rw [hbe]; exact Nat.mul_div_le xs.length p.numThreads
    have h2 : p.numThreads * p.blockSize = (p.numThreads - 1) * p.blockSize + p.blockSize := by
      have : p.numThreads = (p.numThreads - 1) + 1 := by omega
      rw [this, Nat.succ_mul]; simp
    obtain ⟨hf, hne⟩ := chunksOf_flat xs 0 (p.numThreads - 1) p.blockSize (by omega) hb
    rw [List.drop_zero] at hf
    intro s hr
    rw [blocksFrom_length] at hr ⊢
    refine ⟨fun hd => ?_, fun h2 hret => ?_⟩
    · rw [C18_all_done_partial _ _ hne s hr hd, hf]
    · rw [C18_at_return_partial _ _ (by omega) h2 hne s hr hret, hf]

example : parallelForBlocks 2049 8 1024 = .ok [(0, 683), (683, 1366), (1366, 2049)] := by decide

-- non-vacuity of the hypotheses: the chunks are non-empty and all threads can finish
example : (∀ i, i < 3 → exChunks i ≠ []) ∧
    (runSched (step 3) (init exChunks) [0, 1, 2, 0, 1, 2, 1, 2, 1]).isSome = true ∧
    ((runSched (step 3) (init exChunks) [0, 1, 2, 0, 1, 2, 1, 2, 1]).map (fun s => (s.pc 0, s.pc 1, s.pc 2, memory 3 s)))
      = some (.done, .done, .done, [1, 2, 3, 4]) := by decide
example : ∃ s, Reach (step 2) (init exChunks) s ∧ returned 2 s := by
  cases h : runSched (step 2) (init exChunks) [0, 0, 1, 1, 1, 1] with
  | none =>
    have : (runSched (step 2) (init exChunks) [0, 0, 1, 1, 1, 1]).isSome = true := by decide
    rw [h] at this; cases this
  | some s =>
    refine ⟨s, ⟨_, h⟩, ?_⟩
    have : ((runSched (step 2) (init exChunks) [0, 0, 1, 1, 1, 1]).map (fun s => s.pc 1)) = some .done := by decide
    rw [h] at this; injection this

end Mcut.PrefixSum
