import Verif.Model.Util
/-!
# Scheduling of parallel loops (include/mcut/internal/tpool.h)

`uint32_t` values are natural numbers; the one place where the code can wrap (`length + min - 1`) keeps the
explicit `% 2^32`.
-/
namespace Mcut.Sched

/-- What `get_scheduling_parameters` can do besides returning. `divByZero` is undefined behaviour
(tpool.h:376 divides before the check at tpool.h:380). -/
inductive Err where
  | divByZero
  | runtimeError
deriving DecidableEq, Repr

structure Params where
  numThreads : Nat
  maxThreads : Nat
  blockSize : Nat
deriving DecidableEq, Repr

/-- `get_scheduling_parameters` — tpool.h:353-391. `avail` counts the workers plus the master. -/
def schedulingParams (length avail minPer : Nat) : Except Err Params :=
  if minPer = 0 then .error .divByZero else
  let maxThreads := ((length + minPer - 1) % 2 ^ 32) / minPer
  let numThreads := min (if avail ≠ 0 then avail else 2) maxThreads
  if numThreads = 0 then .error .divByZero else
  let block := length / numThreads
  if numThreads = 0 ∨ numThreads > avail then .error .runtimeError else
  if maxThreads = 0 then .error .runtimeError else
  if block = 0 then .error .runtimeError else
  .ok ⟨numThreads, maxThreads, block⟩

/-- The loop of `parallel_for` that hands out blocks — tpool.h:509-522 (same in 457-470, 620-643, 696-709,
773-785, 852-865). `workers` blocks of `block` elements, then the master's block up to `last`. -/
def blocksFrom (start : Nat) (workers block last : Nat) : List (Nat × Nat) :=
  match workers with
  | 0 => [(start, last)]
  | w + 1 => (start, start + block) :: blocksFrom (start + block) w block last

/-- `parallel_for` — tpool.h:473-527: the blocks `[begin,end)` on which the task function is called, in thread
order, the master's block last. -/
def parallelForBlocks (length avail minPer : Nat) : Except Err (List (Nat × Nat)) :=
  match schedulingParams length avail minPer with
  | .error e => .error e
  | .ok p => .ok (blocksFrom 0 (p.numThreads - 1) p.blockSize length)

/-- The indices of one block, in the order in which the task function visits them. -/
def blockIndices (b : Nat × Nat) : List Nat := List.range' b.1 (b.2 - b.1)

/-- The memory effect of a loop body that writes cell `i` with a value depending only on `i`
(every `parallel_for` task in preproc.cpp/frontend.cpp/bvh.cpp that fills an output array). -/
def writeAll {α} (f : Nat → α) (arr : List α) (order : List Nat) : List α :=
  order.foldl (fun a i => a.set i (f i)) arr

end Mcut.Sched
