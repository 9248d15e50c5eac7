import Verif.Lemmas.C19
/-! # C19: parallel search finds an element iff one exists -/
namespace Mcut.Find
open Mcut.Sched

/-- **C19 for `parallel_find_if` and `parallel_find_in_map_by_key`.** For every non-empty range (below the 32-bit
limit), predicate, pool size and interleaving of the searching threads: when all threads have left the search (which
the barrier awaits), the returned position is in range and matches; and the end iterator is returned only if
nothing in the range matches. -/
theorem C19_find_if (pred : Nat → Bool) (len avail minPer : Nat) (hl : 0 < len) (ha : 0 < avail) (hm : 0 < minPer)
    (hov : len + minPer ≤ 2 ^ 32) :
    ∃ bs, parallelForBlocks len avail minPer = .ok bs ∧
      ∀ s, Reach (step pred bs.length (stopOf bs)) (initAll bs) s → (∀ i, i < bs.length → s.pc i = .exited) →
        (∀ p, ret s = some p → p < len ∧ pred p = true) ∧
        (ret s = none → ∀ k, k < len → pred k = false) := by
  obtain ⟨bs, hbs, hpos, hbound, hcov⟩ := call_blocks len avail minPer hl ha hm hov
  refine ⟨bs, hbs, fun s hr hex => ?_⟩
  have h0 : Inv pred bs.length (startOf bs) (stopOf bs) (fun _ => True) (initAll bs) :=
    inv_init pred bs _ _ (fun i hi => (hbound i hi).1) rfl rfl rfl (fun i _ => Or.inl ⟨trivial, rfl⟩)
  have hinv := Reach.inv (inv_step pred bs.length (startOf bs) (stopOf bs) (fun _ => True)) h0 hr
  obtain ⟨h1, h2⟩ := inv_final _ _ _ _ _ s hinv hex
  refine ⟨fun p hp => ?_, fun hn k hk => ?_⟩
  · obtain ⟨hp1, i, hi, -, ha, hb⟩ := h1 p hp
    exact ⟨(hcov p).mpr ⟨i, hi, ha, hb⟩, hp1⟩
  · obtain ⟨i, hi, ha, hb⟩ := (hcov k).mp hk
    exact h2 hn i hi trivial k ha hb

/-- **C19 (termination).** Any thread that has not left the search can make a step (nobody blocks), and every run is
finite: at most `len + 3·threads` steps. -/
theorem C19_find_if_terminates (pred : Nat → Bool) (len avail minPer : Nat) (hl : 0 < len) (ha : 0 < avail)
    (hm : 0 < minPer) (hov : len + minPer ≤ 2 ^ 32) :
    ∃ bs, parallelForBlocks len avail minPer = .ok bs ∧
      ∀ sched s, runSched (step pred bs.length (stopOf bs)) (initAll bs) sched = some s →
        sched.length ≤ workAll (stopOf bs) (initAll bs) bs.length ∧
        ∀ i, i < bs.length → s.pc i ≠ .exited → ∃ s', step pred bs.length (stopOf bs) s i = some s' := by
  obtain ⟨bs, hbs, hpos, hbound, hcov⟩ := call_blocks len avail minPer hl ha hm hov
  refine ⟨bs, hbs, fun sched s hr => ⟨?_, ?_⟩⟩
  · have h0 : Inv pred bs.length (startOf bs) (stopOf bs) (fun _ => True) (initAll bs) :=
      inv_init pred bs _ _ (fun i hi => (hbound i hi).1) rfl rfl rfl (fun i _ => Or.inl ⟨trivial, rfl⟩)
    have key : ∀ (sched : List Nat) (s0 s : St), Inv pred bs.length (startOf bs) (stopOf bs) (fun _ => True) s0 →
        runSched (step pred bs.length (stopOf bs)) s0 sched = some s →
        sched.length + workAll (stopOf bs) s bs.length ≤ workAll (stopOf bs) s0 bs.length := by
      intro sched
      induction sched with
      | nil => intro s0 s _ h; simp [runSched] at h; subst h; simp
      | cons i is ih =>
        intro s0 s hinv h
        simp only [runSched] at h
        cases hs : step pred bs.length (stopOf bs) s0 i with
        | none => simp [hs] at h
        | some s1 =>
          simp only [hs, Option.bind_some] at h
          have hi : i < bs.length := by
            apply Classical.byContradiction; intro hn; simp [step, hn] at hs
          have h1 := ih s1 s (inv_step _ _ _ _ _ s0 i s1 hinv hs) h
          have h2 := workAll_step pred bs.length bs.length (stopOf bs) s0 s1 i hi (hinv.hi i hi) hs
          simp only [List.length_cons]; omega
    have := key sched _ s h0 hr
    omega
  · intro i hi hne
    unfold step
    rw [if_pos hi]
    cases hpc : s.pc i with
    | search => simp only; split; exact ⟨_, rfl⟩; split <;> exact ⟨_, rfl⟩
    | set p => simp only; cases s.result <;> exact ⟨_, rfl⟩
    | store => exact ⟨_, rfl⟩
    | exited => exact absurd hpc hne

/-- **C19 for `parallel_find` (what the code really does).** Only the master's (last) block is searched: the result
is a match of the last block if there is one, and the end iterator otherwise. Missing for the full property: the
workers' blocks are never searched, see `C19_parallel_find_fails`. -/
theorem C19_parallel_find_partial (pred : Nat → Bool) (len avail minPer : Nat) (hl : 0 < len) (ha : 0 < avail)
    (hm : 0 < minPer) (hov : len + minPer ≤ 2 ^ 32) :
    ∃ bs, parallelForBlocks len avail minPer = .ok bs ∧ 0 < bs.length ∧
      ∀ s, Reach (step pred bs.length (stopOf bs)) (initMasterOnly bs) s → (∀ i, i < bs.length → s.pc i = .exited) →
        (∀ p, ret s = some p → startOf bs (bs.length - 1) ≤ p ∧ p < len ∧ pred p = true) ∧
        (ret s = none → ∀ k, startOf bs (bs.length - 1) ≤ k → k < stopOf bs (bs.length - 1) → pred k = false) := by
  obtain ⟨bs, hbs, hpos, hbound, hcov⟩ := call_blocks len avail minPer hl ha hm hov
  refine ⟨bs, hbs, hpos, fun s hr hex => ?_⟩
  have h0 : Inv pred bs.length (startOf bs) (stopOf bs) (fun i => i + 1 = bs.length) (initMasterOnly bs) := by
    refine inv_init pred bs _ _ (fun i hi => (hbound i hi).1) rfl rfl rfl (fun i _ => ?_)
    by_cases h : i + 1 = bs.length
    · exact Or.inl ⟨h, by simp [initMasterOnly, h]⟩
    · exact Or.inr ⟨h, by simp [initMasterOnly, h]⟩
  have hinv := Reach.inv (inv_step pred bs.length (startOf bs) (stopOf bs) _) h0 hr
  obtain ⟨h1, h2⟩ := inv_final _ _ _ _ _ s hinv hex
  refine ⟨fun p hp => ?_, fun hn k ha hb => ?_⟩
  · obtain ⟨hp1, i, hi, hi1, ha, hb⟩ := h1 p hp
    have : bs.length - 1 = i := by omega
    rw [this]
    have := (hbound i hi).2
    exact ⟨ha, by omega, hp1⟩
  · exact h2 hn (bs.length - 1) (by omega) (by omega) k ha hb

/-- **C19 is violated by `parallel_find`.** Two threads, 4 elements (granularity 2), the match is at position 0: every
run that finishes returns the end iterator. -/
theorem C19_parallel_find_fails :
    ∃ bs, parallelForBlocks 4 2 2 = .ok bs ∧
      ∀ s, Reach (step (fun k => k == 0) bs.length (stopOf bs)) (initMasterOnly bs) s →
        (∀ i, i < bs.length → s.pc i = .exited) → ret s = none := by
  obtain ⟨bs, hbs, hpos, h⟩ := C19_parallel_find_partial (fun k => k == 0) 4 2 2 (by decide) (by decide) (by decide) (by decide)
  refine ⟨bs, hbs, fun s hr hex => ?_⟩
  have hb : bs = [(0, 2), (2, 4)] := by
    have : parallelForBlocks 4 2 2 = .ok [(0, 2), (2, 4)] := by decide
    rw [this] at hbs; injection hbs with h; exact h.symm
  obtain ⟨h1, -⟩ := h s hr hex
  cases hret : ret s with
  | none => rfl
  | some p =>
    have := h1 p hret
    subst hb
    have hp : p = 0 := by simpa using this.2.2
    subst hp
    have := this.1
    simp [startOf] at this

-- non-vacuity: a run of two threads in which both see a match before either publishes; thread 1 wins
example : parallelForBlocks 4 2 2 = .ok [(0, 2), (2, 4)] ∧
    ((runSched (step (fun k => k == 1 || k == 2) 2 (stopOf [(0, 2), (2, 4)])) (initAll [(0, 2), (2, 4)])
        [0, 0, 1, 1, 0, 1]).map (fun s => (s.pc 0, s.pc 1, ret s))) = some (.exited, .exited, some 2) := by decide
example : ((runSched (step (fun k => k == 0) 2 (stopOf [(0, 2), (2, 4)])) (initMasterOnly [(0, 2), (2, 4)])
        [1, 1, 1]).map (fun s => (s.pc 0, s.pc 1, ret s))) = some (.exited, .exited, none) := by decide

end Mcut.Find
