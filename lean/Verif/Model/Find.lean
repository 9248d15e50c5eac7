import Verif.Model.Sched
/-!
# Parallel search (include/mcut/internal/tpool.h:646-871)

Positions are indices into the searched range; `pred k` says whether the element at index `k` matches (the
predicate/`==` is assumed total and free of side effects). Each thread searches its own block; the shared
objects are the one-shot promise `result` and the atomic `done_flag`.
-/
namespace Mcut.Find

/-- Where a thread is in `find_element` / `find_map_element_by_key` / `find_element_with_pred`
(tpool.h:652-666, 725-741, 805-822). -/
inductive PC where
  | search            -- at the `for` condition
  | set (p : Nat)     -- match seen at `p`, before `result->set_value`
  | store             -- `set_value` succeeded, before `done_flag->store(true)`
  | exited            -- returned (or: waiting at / past the barrier)
deriving DecidableEq, Repr

structure St where
  pos : Nat → Nat
  pc : Nat → PC
  result : Option Nat
  done : Bool

/-- One step of thread `i` whose block ends at `stop i`. Loop test, element test and increment are one step (the only
shared access in it is the atomic load of `done_flag`). A second `set_value` throws `future_error`; the handler's
`set_exception` throws again and is swallowed (660-666), so the thread just leaves. -/
def step (pred : Nat → Bool) (n : Nat) (stop : Nat → Nat) (s : St) (i : Nat) : Option St :=
  if i < n then
    match s.pc i with
    | .search =>
      if s.pos i = stop i ∨ s.done = true then some { s with pc := upd s.pc i .exited }
      else if pred (s.pos i) then some { s with pc := upd s.pc i (.set (s.pos i)) }
      else some { s with pos := upd s.pos i (s.pos i + 1) }
    | .set p =>
      match s.result with
      | none => some { s with result := some p, pc := upd s.pc i .store }
      | some _ => some { s with pc := upd s.pc i .exited }
    | .store => some { s with done := true, pc := upd s.pc i .exited }
    | .exited => none
  else none

/-- Block boundaries handed to thread `i`. -/
def startOf (bs : List (Nat × Nat)) (i : Nat) : Nat := (bs[i]?.map (·.1)).getD 0
def stopOf (bs : List (Nat × Nat)) (i : Nat) : Nat := (bs[i]?.map (·.2)).getD 0

/-- `parallel_find_if` / `parallel_find_in_map_by_key` before any thread runs — tpool.h:846-865, 765-785. -/
def initAll (bs : List (Nat × Nat)) : St := ⟨startOf bs, fun _ => .search, none, false⟩

/-- `parallel_find` before any thread runs — tpool.h:689-709. The worker lambda (702-706) consists of a comma
expression that names `find_element` but never calls it, so a worker is finished at once; only the master (the
last thread) searches. -/
def initMasterOnly (bs : List (Nat × Nat)) : St :=
  ⟨startOf bs, fun i => if i + 1 = bs.length then .search else .exited, none, false⟩

/-- The value returned — tpool.h:867-870 (711-714, 792-795). `none` is the end iterator. -/
def ret (s : St) : Option Nat := if s.done then s.result else none

end Mcut.Find
