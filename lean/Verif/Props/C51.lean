import Verif.Lemmas.C51
/-! # C51: pushed work wakes the consumer; C52: shutdown wakes the consumer -/
namespace Mcut.Queue
variable {α : Type}

/-- **C51 is violated by the code.** `push` notifies without holding the mutex that the waiting consumer uses. There is an
interleaving after which the queue holds a value, the only consumer sleeps, the producer's `push` has completely
returned, and nobody is about to notify. -/
theorem C51_lost_wakeup_fails :
    ∃ s : St Nat, Reach (step 2 1) init s ∧ contents s s.alloc s.head = [5] ∧ s.pc 0 = .blocked ∧ s.pc 1 = .idle := by
  let sched : List (Act Nat) := [.beginWait 0, .check 0, .push 1 5, .notify 1 none, .block 0]
  cases h : runSched (step 2 1) (init : St Nat) sched with
  | none =>
    have : (runSched (step 2 1) (init : St Nat) sched).isSome = true := by decide
    rw [h] at this; cases this
  | some s =>
    have : ((runSched (step 2 1) (init : St Nat) sched).map (fun s => (contents s s.alloc s.head, s.pc 0, s.pc 1)))
      = some ([5], .blocked, .idle) := by decide
    rw [h] at this; simp at this
    exact ⟨s, ⟨sched, h⟩, this.1, this.2.1, this.2.2⟩

/-- **C51 (partial).** With one consumer (thread 0; every queue of mcut has exactly one) and any number of producers: in
every run in which no push falls between the consumer's test of the queue and its going to sleep, whenever the
consumer sleeps while the queue is non-empty some producer is about to notify it. Missing: the excluded window, in which
the wake-up is lost (`C51_lost_wakeup_fails`). -/
theorem C51_wakeup_partial (n : Nat) (hn : 0 < n) (s : St α) (hr : Reach (stepNoRace n) init s)
    (hb : s.pc 0 = .blocked) (hne : s.head ≠ s.tail) : ∃ t, t < n ∧ s.pc t = .notifying := by
  have h := Reach.inv (awake_step n hn) (s := (init : St α))
    ⟨consOnly_init 1, (fun h => by cases h), (fun h => by cases h)⟩ hr
  rcases h.2.1 hb with h1 | h1
  · exact absurd h1 hne
  · exact h1

/-- **C51 (partial, continued).** The notification of a producer wakes the sleeping consumer. -/
theorem C51_notify_wakes_partial (n : Nat) (hn : 0 < n) (s s' : St α) (hr : Reach (step n 1) init s) (t : Nat)
    (w : Option Nat) (hb : s.pc 0 = .blocked) (hs : step n 1 s (.notify t w) = some s') : s'.pc 0 = .woken := by
  have hco := Reach.inv (consOnly_step n 1) (consOnly_init 1) hr
  simp only [step] at hs
  split at hs
  · rename_i hc
    cases hn' : notifyOne n s w with
    | none => simp [hn'] at hs
    | some s1 =>
      simp [hn'] at hs; subst hs
      obtain ⟨_, _, _, _, _, _, _, _, w9⟩ := notify_wakes n hn s s1 hco w hn'
      have : (0:Nat) ≠ t := by intro e; subst e; rw [hb] at hc; cases hc.2
      simp only [upd_other _ _ _ _ this]; exact w9 hb
  · cases hs

/-- **C52.** For every interleaving with one consumer: once shutdown has set the flag and then disrupted the queue, the
consumer is not asleep and will not go to sleep again (so joining its thread terminates). -/
theorem C52_shutdown_wakes (n : Nat) (hn : 0 < n) (s : St α) (hr : Reach (step n 1) init s) (hd : s.disrupted = true) :
    s.pc 0 ≠ .blocked ∧ s.pc 0 ≠ .pendingBlock := by
  have h := Reach.inv (shut_step n hn) (s := (init : St α))
    ⟨inv_init, consOnly_init 1, (fun h => by cases h)⟩ hr
  exact (h.2.2 hd).2

-- non-vacuity
example : ((runSched (stepNoRace 2) (init : St Nat) [.beginWait 0, .check 0, .block 0, .push 1 5]).map
    (fun s => (s.pc 0, s.head, s.tail, s.pc 1))) = some (.blocked, 0, 1, .notifying) := by decide
example : ((runSched (step 2 1) (init : St Nat) [.beginWait 0, .check 0, .block 0, .setDone, .disrupt 1 (some 0)]).map
    (fun s => (s.disrupted, s.pc 0))) = some (true, .woken) := by decide

end Mcut.Queue
