import Verif.Model.Util
/-!
# The shared compute pool (include/mcut/internal/tpool.h:243-345, 418-527, 550-644, 717-795; frontend.h:556-593)

A context has one compute pool. Its worker threads have one FIFO queue each and do not steal (worker_thread,
tpool.h:250-272). A *manager* thread (one, or two in an out-of-order context, frontend.h:577) runs API commands; the parallel
sections of a command are *jobs*. A job of `blocks` blocks submits block `i` to worker `i` for `i < blocks - 1` and executes
the last block itself (tpool.h:449-469, 504-525, 611-644, 768-783).

Inside a block there are `rounds` meetings of all blocks of the job at a barrier (2 in the triangulation,
source/frontend.cpp:3356-3467; 1 in `parallel_find_in_map_by_key`, tpool.h:717-795; 0 otherwise), and in a `chain` job
(`parallel_partial_sum`, tpool.h:550-644) a block can only end when the block before it has published its end value.

What is simplified: the computation inside blocks does not block and is part of the steps; the barrier is one step in, one
step out (that `barrier_t` does this is C48); in a chain job a block counts as done when it published its end value, the rest
of it does not block; the queues are FIFO (C15) and a sleeping worker wakes up when there is work (C51 shows one interleaving
where it does not; that defect is kept apart from this one). No exceptions: a block that throws before the barrier would
leave the others waiting.
-/
namespace Mcut.Pool

/-- A parallel section. -/
structure Job where
  blocks : Nat
  rounds : Nat
  chain : Bool
deriving DecidableEq

/-- Progress of a block: not started, computing before meeting `r`, waiting at meeting `r`, done. -/
inductive Ph where
  | idle
  | work (r : Nat)
  | at (r : Nat)
  | done
deriving DecidableEq

/-- A manager: the jobs it still has to do (the first one is the current one), how many blocks of it are submitted, and the
progress of its blocks. -/
structure Mgr where
  todo : List Job
  submitted : Nat
  ph : Nat → Ph

/-- Queue and current task of every worker; a task is a manager and a block number. -/
structure St where
  mgr : Nat → Mgr
  queue : Nat → List (Nat × Nat)
  running : Nat → Option (Nat × Nat)

/-- The managers with their work, before anything happened. -/
def init (prog : Nat → List Job) : St := ⟨fun m => ⟨prog m, 0, fun _ => .idle⟩, fun _ => [], fun _ => none⟩

/-- A step of the pool. -/
inductive Act where
  | submit (m : Nat)
  | begin (m : Nat)
  | pop (w : Nat)
  | arrive (m i : Nat)
  | pass (m i : Nat)
  | finish (m i : Nat)
  | complete (m : Nat)
deriving DecidableEq

/-- Has the block got at least to meeting `r`? -/
def Ph.reached (r : Nat) : Ph → Bool
  | .idle => false
  | .work r' => decide (r < r')
  | .at r' => decide (r ≤ r')
  | .done => true

/-- Store the progress of one block. -/
def St.setPh (s : St) (m i : Nat) (p : Ph) : St :=
  { s with mgr := upd s.mgr m { s.mgr m with ph := upd (s.mgr m).ph i p } }

/-- One step, with `M` managers and `W` workers. -/
def step (M W : Nat) (s : St) : Act → Option St
  | .submit m =>                                          -- tpool.h:452-464, 507-518: pool.submit(i, …), submit 330-341
    match (s.mgr m).todo with
    | [] => none
    | j :: _ =>
      let n := (s.mgr m).submitted
      if m < M ∧ n + 1 < j.blocks then
        some { s with mgr := upd s.mgr m { s.mgr m with submitted := n + 1 }, queue := upd s.queue n (s.queue n ++ [(m, n)]) }
      else none
  | .begin m =>                                           -- tpool.h:469, 520: the manager's own block
    match (s.mgr m).todo with
    | [] => none
    | j :: _ =>
      if m < M ∧ (s.mgr m).submitted + 1 = j.blocks ∧ (s.mgr m).ph (j.blocks - 1) = .idle then
        some (s.setPh m (j.blocks - 1) (.work 0))
      else none
  | .pop w =>                                             -- tpool.h:256-266: worker_thread
    match s.queue w, s.running w with
    | t :: q, none =>
      if w < W then some { (s.setPh t.1 t.2 (.work 0)) with queue := upd s.queue w q, running := upd s.running w (some t) } else none
    | _, _ => none
  | .arrive m i =>                                        -- barrier.wait() begins
    match (s.mgr m).todo, (s.mgr m).ph i with
    | j :: _, .work r => if m < M ∧ i < j.blocks ∧ r < j.rounds then some (s.setPh m i (.at r)) else none
    | _, _ => none
  | .pass m i =>                                          -- barrier.wait() ends: all blocks have arrived
    match (s.mgr m).todo, (s.mgr m).ph i with
    | j :: _, .at r =>
      if m < M ∧ i < j.blocks ∧ ∀ k < j.blocks, ((s.mgr m).ph k).reached r = true then some (s.setPh m i (.work (r + 1))) else none
    | _, _ => none
  | .finish m i =>                                        -- the task returns to its worker; chain: previous_end_value->get()
    match (s.mgr m).todo, (s.mgr m).ph i with
    | j :: _, .work r =>
      if m < M ∧ i < j.blocks ∧ r = j.rounds ∧ (j.chain = true → i = 0 ∨ (s.mgr m).ph (i - 1) = .done) then
        some { (s.setPh m i .done) with running := if i + 1 < j.blocks then upd s.running i none else s.running }
      else none
    | _, _ => none
  | .complete m =>                                        -- tpool.h:522-524, 784-786: wait for the futures, go on
    match (s.mgr m).todo with
    | [] => none
    | j :: js =>
      if m < M ∧ ∀ i < j.blocks, (s.mgr m).ph i = .done then some { s with mgr := upd s.mgr m ⟨js, 0, fun _ => .idle⟩ } else none

end Mcut.Pool
