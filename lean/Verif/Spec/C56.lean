import Verif.Model.Pool

/-! Specification notions used in the statements of `Props/C56.lean`. -/
namespace Mcut.Pool

/-- Spec: every parallel section has at least one block, and at most one per worker plus the manager's own. -/
def JobsOk (W : Nat) (prog : Nat → List Job) : Prop := ∀ m, ∀ j ∈ prog m, 1 ≤ j.blocks ∧ j.blocks ≤ W + 1

/-- Spec: all jobs of the first `M` managers are done. -/
def Final (M : Nat) (s : St) : Prop := ∀ m < M, (s.mgr m).todo = []

/-- Spec: nothing can happen any more. -/
def Stuck (M W : Nat) (s : St) : Prop := ∀ a, step M W s a = none

/-- Spec: nobody uses a barrier, or all but one manager use neither barriers nor chains. -/
def Harmless (prog : Nat → List Job) : Prop :=
  (∀ m, ∀ j ∈ prog m, j.rounds = 0) ∨ ∃ m₀, ∀ m, m ≠ m₀ → ∀ j ∈ prog m, j.rounds = 0 ∧ j.chain = false

/-- Spec: all steps of all jobs of the first `M` managers: submissions, completion, and per block its start, twice the
number of meetings, and its end. -/
def work (M : Nat) (prog : Nat → List Job) : Nat :=
  ((List.range M).map (fun m => ((prog m).map (fun j => (j.blocks - 1) + 1 + j.blocks * (2 * j.rounds + 2))).sum)).sum

end Mcut.Pool
