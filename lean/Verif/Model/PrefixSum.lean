import Verif.Model.Sched
/-!
# `partial_sum` and `parallel_partial_sum` (include/mcut/internal/tpool.h:529-644)

Values are `uint32_t` words (`BitVec 32`, wrapping addition). Each thread works on its own chunk; the only
communication is the chain of promises `end_values`. One model step per chunk-local phase and per element of
the final `for_each`, so a state in which the master has returned while a worker is still adding is visible.
-/
namespace Mcut.PrefixSum

abbrev W := BitVec 32

/-- The `while` loop of `partial_sum` — tpool.h:541-544. -/
def partialSumLoop (sum : W) : List W → List W
  | [] => []
  | x :: xs => (sum + x) :: partialSumLoop (sum + x) xs

/-- `partial_sum` (in place) — tpool.h:530-548. -/
def partialSum : List W → List W
  | [] => []
  | x :: xs => x :: partialSumLoop x xs

/-- Where one thread is inside `process_chunk::operator()` — tpool.h:555-582. -/
inductive PC where
  | start                          -- before `partial_sum(begin, end, begin)` (562)
  | scanned                        -- before `previous_end_value->get()` (564) / `set_value` (573)
  | adding (k : Nat) (addend : W)  -- inside `for_each(begin, last, …)` (569), `k` elements done
  | done
deriving DecidableEq, Repr

structure St where
  data : Nat → List W
  pc : Nat → PC
  endv : Nat → Option W            -- promise `end_values[i]` (607)

/-- One step of thread `i` of `n` — tpool.h:555-582. `none`: thread finished or blocked in `get()`.
Only threads `i < n-1` own a promise (627, 643); thread 0 has no predecessor. -/
def step (n : Nat) (s : St) (i : Nat) : Option St :=
  if i < n then
    match s.pc i with
    | .start => some { s with data := upd s.data i (partialSum (s.data i)), pc := upd s.pc i .scanned }
    | .scanned =>
      if i = 0 then
        some { s with
          pc := upd s.pc i .done
          endv := if i + 1 < n then upd s.endv i (s.data i).getLast? else s.endv }
      else
        match s.endv (i - 1) with
        | none => none
        | some a =>
          let last := (s.data i).length - 1
          let d := (s.data i).modify last (· + a)
          some { data := upd s.data i d
                 pc := upd s.pc i (.adding 0 a)
                 endv := if i + 1 < n then upd s.endv i d.getLast? else s.endv }
    | .adding k a =>
      if k + 1 < (s.data i).length then
        some { s with data := upd s.data i ((s.data i).modify k (· + a)), pc := upd s.pc i (.adding (k + 1) a) }
      else some { s with pc := upd s.pc i .done }
    | .done => none
  else none

/-- The chunks are the scheduler's blocks of the caller's array — tpool.h:617-643. -/
def chunksOf (xs : List W) (bs : List (Nat × Nat)) (i : Nat) : List W :=
  match bs[i]? with
  | some b => (xs.drop b.1).take (b.2 - b.1)
  | none => []

/-- State in which the chunks have been handed out — tpool.h:603-643. -/
def init (c : Nat → List W) : St := ⟨c, fun _ => .start, fun _ => none⟩

/-- The whole array: the chunks are consecutive in memory. -/
def memory (n : Nat) (s : St) : List W := (List.range n).flatMap s.data

/-- The call returns when the master (thread `n-1`) has finished its own chunk (641-644); the worker futures
declared at 614 are never waited for. -/
def returned (n : Nat) (s : St) : Prop := s.pc (n - 1) = .done

/-- All threads have finished. -/
def allDone (n : Nat) (s : St) : Prop := ∀ i, i < n → s.pc i = .done

instance (n : Nat) (s : St) : Decidable (returned n s) := by unfold returned; infer_instance

end Mcut.PrefixSum
