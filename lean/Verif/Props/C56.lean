import Verif.Lemmas.C56

/-! # C56: commands that share the compute pool do not block each other -/
namespace Mcut.Pool

/-- **C56 (no deadlock).** For any number of managers and workers and any work in which either nobody uses a barrier, or all
but one manager use neither barriers nor chains: in no reachable state, under any schedule, is the pool stuck before all
jobs are done. -/
theorem C56_no_deadlock_partial (M W : Nat) (prog : Nat → List Job) (hok : JobsOk W prog) (hh : Harmless prog) (s : St)
    (hr : Reach (step M W) (init prog) s) : Final M s ∨ ¬ Stuck M W s := by
  obtain ⟨hi, ht⟩ := reach_inv hok hr
  by_cases hf : Final M s
  · exact Or.inl hf
  · refine Or.inr (not_stuck hi ?_ hf)
    rcases hh with hh | ⟨m₀, hh⟩
    · exact Or.inl (fun m j hj => hh m j (ht m j hj))
    · exact Or.inr ⟨m₀, fun m hm j hj => hh m hm j (ht m j hj)⟩

/-- **C56 (termination).** Whatever the work is, a run never has more than `work M prog` steps; so with the harmless work
above every schedule that goes on while it can ends, with all jobs done, after exactly that many steps. -/
theorem C56_terminates_partial (M W : Nat) (prog : Nat → List Job) (hok : JobsOk W prog) (sched : List Act) (s : St)
    (hr : runSched (step M W) (init prog) sched = some s) :
    sched.length ≤ work M prog ∧ (Harmless prog → Stuck M W s → Final M s ∧ sched.length = work M prog) := by
  have h1 := run_left sched _ _ (inv_init hok) hr
  rw [left_init] at h1
  refine ⟨by omega, fun hh hst => ?_⟩
  have hf : Final M s := (C56_no_deadlock_partial M W prog hok hh s ⟨sched, hr⟩).resolve_right (fun h => h hst)
  refine ⟨hf, ?_⟩
  have : left M s = 0 := by
    unfold left
    rw [sumTo_congr (g := fun _ => 0) (fun m hm => by simp [mgrLeft, hf m hm]), sumTo_zero]
  omega

/-- An in-order context has one manager: it never deadlocks, whatever its commands do. -/
theorem C56_in_order_partial (W : Nat) (jobs : List Job) (hok : ∀ j ∈ jobs, 1 ≤ j.blocks ∧ j.blocks ≤ W + 1) (s : St)
    (hr : Reach (step 1 W) (init (fun m => if m = 0 then jobs else [])) s) : Final 1 s ∨ ¬ Stuck 1 W s := by
  refine C56_no_deadlock_partial 1 W _ ?_ (Or.inr ⟨0, ?_⟩) s hr
  · intro m j hj
    by_cases e : m = 0
    · simp [e] at hj; exact hok j hj
    · simp [e] at hj
  · intro m hm j hj; simp [hm] at hj

/-- **C56 is violated by out-of-order contexts.** Two triangulations of components with at least three blocks each (more
than 2048 faces) on a pool with two workers: the submissions interleave so that worker 0 has the first component's block
first and worker 1 the second component's block, and all four threads wait at the two barriers for ever. -/
theorem C56_two_triangulations_fail : ∃ s, Reach (step 2 2) (init (fun m => if m < 2 then [⟨3, 2, false⟩] else [])) s ∧
    Stuck 2 2 s ∧ ¬ Final 2 s := by
  have hex : ∃ s, runSched (step 2 2) (init (fun m => if m < 2 then [⟨3, 2, false⟩] else []))
      [.submit 0, .submit 1, .submit 1, .submit 0, .begin 0, .begin 1, .pop 0, .pop 1, .arrive 0 0, .arrive 1 1, .arrive 0 2, .arrive 1 2] = some s ∧
      stuckCheck 2 2 3 s = true := by
    refine ⟨_, rfl, ?_⟩; decide +kernel
  obtain ⟨s, hr, hc⟩ := hex
  exact ⟨s, ⟨_, hr⟩, stuck_of_check hc⟩

/-- The second manager need not triangulate: a prefix sum over more than 2048 faces, which every dispatch of a large mesh
and every face query uses, blocks a concurrent triangulation in the same way. -/
theorem C56_triangulation_and_prefix_sum_fail : ∃ s, Reach (step 2 2) (init (fun m => if m = 0 then [⟨3, 2, false⟩] else if m = 1 then [⟨3, 0, true⟩] else [])) s ∧
    Stuck 2 2 s ∧ ¬ Final 2 s := by
  have hex : ∃ s, runSched (step 2 2) (init (fun m => if m = 0 then [⟨3, 2, false⟩] else if m = 1 then [⟨3, 0, true⟩] else []))
      [.submit 0, .submit 1, .submit 1, .submit 0, .begin 0, .begin 1, .pop 0, .pop 1, .arrive 0 0, .arrive 0 2] = some s ∧
      stuckCheck 2 2 3 s = true := by
    refine ⟨_, rfl, ?_⟩; decide +kernel
  obtain ⟨s, hr, hc⟩ := hex
  exact ⟨s, ⟨_, hr⟩, stuck_of_check hc⟩

-- a dispatch of two parallel sections, one of them a prefix sum, beside a query with a prefix sum: the hypotheses hold
example : JobsOk 2 (fun m => if m = 0 then [⟨3, 0, true⟩, ⟨2, 0, false⟩] else if m = 1 then [⟨3, 0, true⟩] else []) ∧
    Harmless (fun m => if m = 0 then [⟨3, 0, true⟩, ⟨2, 0, false⟩] else if m = 1 then [⟨3, 0, true⟩] else []) := by
  constructor
  · intro m j hj; simp only at hj; split at hj
    · simp at hj; rcases hj with rfl | rfl <;> decide
    · split at hj <;> simp at hj; subst hj; decide
  · left; intro m j hj; simp only at hj; split at hj
    · simp at hj; rcases hj with rfl | rfl <;> rfl
    · split at hj <;> simp at hj; subst hj; rfl

-- a triangulation beside plain parallel sections
example : Harmless (fun m => if m = 0 then [⟨3, 2, false⟩, ⟨3, 0, true⟩] else [⟨3, 0, false⟩]) := by
  refine Or.inr ⟨0, fun m hm j hj => ?_⟩
  simp [hm] at hj; subst hj; exact ⟨rfl, rfl⟩

end Mcut.Pool
