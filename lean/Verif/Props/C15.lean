import Verif.Lemmas.C15
/-! # C15: the work queue is a FIFO; C51: lost wake-ups; C52: shutdown wakes the consumer -/
namespace Mcut.Queue
variable {α : Type}

/-- **C15.** For any number of producers and consumers and every interleaving of their steps: the values removed so far,
in order of removal, followed by the values still linked in the list, are exactly the values pushed, in push order —
nothing lost, duplicated or reordered — and no step ever dereferences an empty pointer. -/
theorem C15_fifo (n nc : Nat) (s : St α) (hr : Reach (step n nc) init s) :
    s.popped.map Prod.snd ++ contents s s.alloc s.head = s.pushed ∧ s.ub = false := by
  have h := reach_inv n nc s hr
  refine ⟨?_, h.noUb⟩
  have h1 := h.le; have h2 := h.headEq; have h3 := h.tailEq; have h4 := h.allocEq
  rw [contents_eq h _ _ (by omega) (by omega), h.pre, h.headEq, List.take_append_drop]

/-- **C15 (`try_pop`).** A `try_pop` that read the tail when the queue was empty fails without removing anything; one that
read it when the queue was non-empty removes and returns the oldest value. -/
theorem C15_try_pop (n nc : Nat) (s s' : St α) (hr : Reach (step n nc) init s) (t snap : Nat) (wasEmpty : Bool)
    (hpc : s.pc t = .popping snap wasEmpty) (hs : step n nc s (.finishTry t) = some s') :
    s'.pushed = s.pushed ∧
    (wasEmpty = true → s'.popped = s.popped ∧ s'.outcome t = some false) ∧
    (wasEmpty = false → ∃ v, (contents s s.alloc s.head).head? = some v ∧ s'.popped = s.popped ++ [(t, v)] ∧
      s'.outcome t = some true) := by
  have h := reach_inv n nc s hr
  have hsn := h.snap t snap wasEmpty hpc
  have h1 := h.le; have h2 := h.headEq; have h3 := h.tailEq; have h4 := h.allocEq
  simp only [step, hpc] at hs
  split at hs
  · rename_i heq
    cases hs
    refine ⟨rfl, fun _ => ⟨rfl, by simp⟩, fun hw => ?_⟩
    have := hsn.2.2.mpr heq; rw [hw] at this; cases this
  · rename_i hne
    cases hs
    obtain ⟨v, hv, he⟩ := popHead_spec h t (by omega)
    rw [he]
    refine ⟨rfl, fun hw => absurd (hsn.2.2.mp hw) hne, fun _ => ⟨v, ?_, rfl, by simp⟩⟩
    rw [contents_eq h _ _ (by omega) (by omega), List.head?_drop, hv]

/-- **C15 (`wait_and_pop`).** When a waiting consumer gets past the wait and the pool is not shutting down, it removes and
returns the oldest value. -/
theorem C15_wait_and_pop (n nc : Nat) (s s' : St α) (hr : Reach (step n nc) init s) (t : Nat)
    (hd : s.done = false) (hs : step n nc s (.take t) = some s') :
    ∃ v, (contents s s.alloc s.head).head? = some v ∧ s'.popped = s.popped ++ [(t, v)] ∧ s'.outcome t = some true := by
  have h := reach_inv n nc s hr
  have h1 := h.le; have h2 := h.headEq; have h3 := h.tailEq; have h4 := h.allocEq
  simp only [step, hd] at hs
  split at hs
  · rename_i hpc
    simp at hs; subst hs
    have ht := h.take t hpc
    rw [hd] at ht
    have hne : s.head ≠ s.tail := by rcases ht with ht | ht; cases ht; exact ht
    obtain ⟨v, hv, he⟩ := popHead_spec h t (by omega)
    rw [he]
    refine ⟨v, ?_, rfl, by simp⟩
    rw [contents_eq h _ _ (by omega) (by omega), List.head?_drop, hv]
  · cases hs

-- non-vacuity: producer 1 pushes 7, 8 around the consumer's try_pop, which returns 7
example : ((runSched (step 2 1) (init : St Nat)
    [.push 1 7, .notify 1 none, .beginTry 0, .push 1 8, .finishTry 0, .notify 1 none]).map
      (fun s => (s.popped, contents s s.alloc s.head, s.outcome 0))) = some ([(0, 7)], [8], some true) := by decide
example : ((runSched (step 2 1) (init : St Nat) [.beginTry 0, .push 1 8, .finishTry 0]).map
      (fun s => (s.popped, contents s s.alloc s.head, s.outcome 0))) = some ([], [8], some false) := by decide
example : ((runSched (step 2 1) (init : St Nat)
    [.beginWait 0, .check 0, .block 0, .push 1 9, .notify 1 (some 0), .reacquire 0, .check 0]).map
      (fun s => (s.done, s.pc 0))) = some (false, .taking) := by decide

end Mcut.Queue
