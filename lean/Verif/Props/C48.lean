import Verif.Lemmas.C48
/-! # C48: the thread barrier -/
namespace Mcut.Barrier

/-- **C48 (safety).** For every number of participants and every interleaving: a participant `i` has left its `k`-th
wait only if every participant `j` has entered its `k`-th wait. -/
theorem C48_nobody_leaves_early (n : Nat) (hn : 0 < n) (s : St) (hr : Reach (step n) (init n) s) (i j k : Nat)
    (hi : i < n) (hj : j < n) (hk : k ≤ s.left i) : k ≤ s.entered j := by
  obtain ⟨hl, -⟩ := reach_inv n hn s hr
  have h1 := hl i hi
  have h2 := hl j hj
  have a : s.left i ≤ s.gen := by unfold Local at h1; split at h1 <;> omega
  have b : s.gen ≤ s.entered j := by unfold Local at h2; split at h2 <;> omega
  omega

/-- **C48 (liveness).** In every reachable state in which participant `i` is inside its wait and every participant
has entered at least as many waits as `i`: however the threads inside the barrier are scheduled, they perform at most
`3n` steps, and as soon as none of them can move any more participant `i` has left that wait. -/
theorem C48_everybody_leaves (n : Nat) (hn : 0 < n) (s : St) (hr : Reach (step n) (init n) s) (i : Nat) (hi : i < n)
    (hin : s.entered i = s.left i + 1) (hall : ∀ j, j < n → s.entered i ≤ s.entered j)
    (sched : List Nat) (s' : St) (hrun : runSched (insideStep n) s sched = some s') :
    sched.length ≤ 3 * n ∧
    ((∀ j, insideStep n s' j = none) → s'.left i = s.left i + 1) := by
  have hinv := reach_inv n hn s hr
  -- generalised over the start state
  have key : ∀ (sched : List Nat) (t : St), Inv n t → runSched (insideStep n) t sched = some s' →
      (∀ j, j < n → s.entered i ≤ t.entered j) →
      ((t.pc i ≠ .out ∧ t.left i = s.left i) ∨ (t.pc i = .out ∧ t.left i = s.left i + 1)) →
      sched.length + wtAll s' n ≤ wtAll t n ∧
      Inv n s' ∧ (∀ j, j < n → s.entered i ≤ s'.entered j) ∧
      ((s'.pc i ≠ .out ∧ s'.left i = s.left i) ∨ (s'.pc i = .out ∧ s'.left i = s.left i + 1)) := by
    intro sched
    induction sched with
    | nil => intro t hinv hrun ha hb; simp [runSched] at hrun; subst hrun; exact ⟨by simp, hinv, ha, hb⟩
    | cons j js ih =>
      intro t hinv hrun ha hb
      simp only [runSched] at hrun
      cases hs : insideStep n t j with
      | none => simp [hs] at hrun
      | some t1 =>
        simp only [hs, Option.bind_some] at hrun
        obtain ⟨hj, hstep, hw, hent, hcase⟩ := inside_spec n t t1 j hs
        have hoth := step_other n t t1 j hstep
        have h1 := wtAll_lt t t1 j n hj (fun k hk => (hoth k hk).1) hw
        have hb1 : (t1.pc i ≠ .out ∧ t1.left i = s.left i) ∨ (t1.pc i = .out ∧ t1.left i = s.left i + 1) := by
          by_cases hij : i = j
          · subst hij
            have hne : t.pc i ≠ .out := by
              intro e; unfold insideStep at hs; rw [if_pos e] at hs; cases hs
            rcases hb with ⟨_, hb⟩ | ⟨hb, _⟩
            · rcases hcase with ⟨a, b⟩ | ⟨a, b⟩
              · exact Or.inr ⟨a, by omega⟩
              · exact Or.inl ⟨a, by omega⟩
            · exact absurd hb hne
          · rw [(hoth i hij).1, (hoth i hij).2]; exact hb
        obtain ⟨r1, r2⟩ := ih t1 (inv_step n t j t1 hinv hstep) hrun (by rw [hent]; exact ha) hb1
        exact ⟨by simp only [List.length_cons]; omega, r2⟩
  have hli := hinv.1 i hi
  have hne : s.pc i ≠ .out := by
    intro e; simp only [Local, e] at hli; omega
  obtain ⟨h1, h2, h3, h4⟩ := key sched s hinv hrun hall (Or.inl ⟨hne, rfl⟩)
  refine ⟨by have := wtAll_le s n; omega, fun hstuck => ?_⟩
  rcases h4 with ⟨ho, hleft⟩ | ⟨_, hleft⟩
  · exfalso
    obtain ⟨j, t, hj⟩ := progress n s' h2 i hi ho (fun j hj => by have := h3 j hj; omega)
    rw [hstuck j] at hj; cases hj
  · exact hleft

/-- **C48 (no wrap-around).** The counter of free spaces never underflows: a thread about to decrement it always sees a
positive value. -/
theorem C48_no_underflow (n : Nat) (hn : 0 < n) (s : St) (hr : Reach (step n) (init n) s) (i g : Nat) (hi : i < n)
    (hpc : s.pc i = .read g) : 0 < s.spaces ∧ s.spaces ≤ n := by
  obtain ⟨hl, hp⟩ := reach_inv n hn s hr
  rcases hp with ⟨h1, h2, h3⟩ | ⟨r, hr, h1, h2, h3⟩ | ⟨r, hr, h1, h2, h3⟩
  · exact ⟨h3, by rw [h2]; exact cnt_le _ _⟩
  · have hir : i ≠ r := by intro e; subst e; rw [hpc] at h1; cases h1
    have := h3 i hi hir; rw [hpc] at this; cases this
  · omega

/-- A participant may have returned from the barrier while another is still executing `wait()` on it: whoever owns the
barrier must therefore not destroy it after merely passing it (`parallel_find_if`, tpool.h:844-871, does). -/
theorem C53_barrier_may_be_in_use_after_return_fails :
    ∃ s, Reach (step 2) (init 2) s ∧ s.left 1 = 1 ∧ s.pc 1 = .out ∧ s.pc 0 = .spin 0 := by
  cases h : runSched (step 2) (init 2) [0, 0, 1, 1, 1, 1] with
  | none => have : (runSched (step 2) (init 2) [0, 0, 1, 1, 1, 1]).isSome = true := by decide
            rw [h] at this; cases this
  | some s =>
    have : ((runSched (step 2) (init 2) [0, 0, 1, 1, 1, 1]).map (fun s => (s.left 1, s.pc 1, s.pc 0))) =
      some (1, .out, .spin 0) := by decide
    rw [h] at this; simp at this
    exact ⟨s, ⟨_, h⟩, this.1, this.2.1, this.2.2⟩

-- non-vacuity: three threads, all inside; the run then lets everybody out
example : ((runSched (step 3) (init 3) [0, 1, 2, 1, 0]).map (fun s => (s.entered 0, s.left 0, s.entered 1, s.entered 2)))
    = some (1, 0, 1, 1) := by decide
example : ((runSched (step 3) (init 3) [0, 1, 2, 1, 0, 2, 2, 2, 0, 1]).map (fun s => (s.left 0, s.left 1, s.left 2)))
    = some (1, 1, 1) := by decide

end Mcut.Barrier
