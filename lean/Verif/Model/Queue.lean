import Verif.Model.Util
/-!
# `thread_safe_queue` (include/mcut/internal/tpool.h:100-226)

A linked list with a dummy node at the tail, one mutex for each end and a condition variable tied to the head
mutex. Each critical section of `tail_mutex` is one step; sections of `head_mutex` are split at every point where the
code reads the tail or (un)blocks, so that pushes interleave with them. Node addresses are allocated from a
counter and never reused (the code owns nodes through `unique_ptr`). A dereference of an empty `data`/`next`
pointer is undefined behaviour and sets `ub`.
-/
namespace Mcut.Queue

structure Node (α : Type) where
  data : Option α
  next : Option Nat

/-- Where a thread is inside a queue operation. -/
inductive PC where
  | idle
  | notifying                              -- push: before `data_cond.notify_one()` (207)
  | popping (tailSnap : Nat) (wasEmpty : Bool) -- try_pop: holds head_mutex, `get_tail()` has returned (118)
  | checking                               -- wait: holds head_mutex, about to evaluate `until` (150)
  | pendingBlock                           -- wait: holds head_mutex, `until` was false, not yet blocked (151)
  | blocked                                -- wait: released head_mutex, blocked on `data_cond`
  | woken                                  -- notified, has to re-acquire head_mutex
  | taking                                 -- wait: holds head_mutex, `until` was true (157-158)
deriving DecidableEq, Repr

structure St (α : Type) where
  heap : Nat → Node α
  head : Nat
  tail : Nat
  alloc : Nat                 -- next unused address
  headLock : Option Nat
  done : Bool                 -- `*m_done`
  pc : Nat → PC
  pushed : List α             -- history: values in the order of their push critical sections
  popped : List (Nat × α)     -- history: (thread, value) in the order of removal
  outcome : Nat → Option Bool -- result of the last finished try_pop/wait_and_pop: got a value?
  disrupted : Bool            -- history: `disrupt_wait_for_data` ran after `done` was set
  ub : Bool

/-- Constructor — tpool.h:167-171. -/
def init {α : Type} : St α :=
  ⟨fun _ => ⟨none, none⟩, 0, 0, 1, none, false, fun _ => .idle, [], [], fun _ => none, false, false⟩

/-- Actions of the threads. -/
inductive Act (α : Type) where
  | push (t : Nat) (v : α)
  | notify (t : Nat) (w : Option Nat)
  | beginTry (t : Nat)
  | finishTry (t : Nat)
  | beginWait (t : Nat)
  | check (t : Nat)
  | block (t : Nat)
  | spurious (t : Nat)
  | reacquire (t : Nat)
  | take (t : Nat)
  | setDone
  | disrupt (t : Nat) (w : Option Nat)

/-- `notify_one`: wakes one blocked thread if there is one among the `n` threads, and is lost otherwise. -/
def notifyOne {α : Type} (n : Nat) (s : St α) (w : Option Nat) : Option (St α) :=
  match w with
  | some t => if t < n ∧ s.pc t = .blocked then some { s with pc := upd s.pc t .woken } else none
  | none => if ∀ t, t < n → s.pc t ≠ .blocked then some s else none

/-- `pop_head` with the preceding `value = move(*head->data)` — tpool.h:121-122, 132-137, 159-160; releases head_mutex
on return. -/
def popHead {α : Type} (s : St α) (t : Nat) : St α :=
  let s1 := { s with headLock := none, pc := upd s.pc t .idle, outcome := upd s.outcome t (some true) }
  match (s.heap s.head).data, (s.heap s.head).next with
  | some v, some nx => { s1 with head := nx, popped := s.popped ++ [(t, v)] }
  | _, _ => { s1 with ub := true }

/-- One step. `n` threads, of which the first `nc` may consume. -/
def step {α : Type} (n nc : Nat) (s : St α) : Act α → Option (St α)
  | .push t v =>                           -- tpool.h:196-206 (critical section of tail_mutex)
    if t < n ∧ s.pc t = .idle then
      let p := s.alloc
      some { s with
        heap := upd (upd s.heap p ⟨none, none⟩) s.tail ⟨some v, some p⟩
        tail := p, alloc := p + 1, pc := upd s.pc t .notifying, pushed := s.pushed ++ [v] }
    else none
  | .notify t w =>                         -- tpool.h:207
    if t < n ∧ s.pc t = .notifying then
      (notifyOne n s w).map (fun s' => { s' with pc := upd s'.pc t .idle })
    else none
  | .beginTry t =>                         -- tpool.h:117-118: lock head_mutex, read tail under tail_mutex
    if t < nc ∧ t < n ∧ s.pc t = .idle ∧ s.headLock = none then
      some { s with headLock := some t, pc := upd s.pc t (.popping s.tail (decide (s.pushed.length = s.popped.length))) }
    else none
  | .finishTry t =>                        -- tpool.h:118-122
    match s.pc t with
    | .popping snap _ =>
      if s.head = snap then
        some { s with headLock := none, pc := upd s.pc t .idle, outcome := upd s.outcome t (some false) }
      else some (popHead s t)
    | _ => none
  | .beginWait t =>                        -- tpool.h:149
    if t < nc ∧ t < n ∧ s.pc t = .idle ∧ s.headLock = none then
      some { s with headLock := some t, pc := upd s.pc t .checking }
    else none
  | .check t =>                            -- tpool.h:150: `m_done->load() || head.get() != get_tail()`
    if s.pc t = .checking then
      if s.done = true ∨ s.head ≠ s.tail then some { s with pc := upd s.pc t .taking }
      else some { s with pc := upd s.pc t .pendingBlock }
    else none
  | .block t =>                            -- tpool.h:151: atomically release head_mutex and block
    if s.pc t = .pendingBlock then some { s with headLock := none, pc := upd s.pc t .blocked } else none
  | .spurious t =>                         -- spurious wake-up allowed by the standard
    if s.pc t = .blocked then some { s with pc := upd s.pc t .woken } else none
  | .reacquire t =>
    if s.pc t = .woken ∧ s.headLock = none then
      some { s with headLock := some t, pc := upd s.pc t .checking }
    else none
  | .take t =>                             -- tpool.h:158-163
    if s.pc t = .taking then
      if s.done = false then some (popHead s t)
      else some { s with headLock := none, pc := upd s.pc t .idle, outcome := upd s.outcome t (some false) }
    else none
  | .setDone => some { s with done := true } -- `m_done.store(true)` (tpool.h:309)
  | .disrupt t w =>                        -- tpool.h:180-189: notify while holding head_mutex
    if t < n ∧ s.pc t = .idle ∧ s.headLock = none then
      (notifyOne n s w).map (fun s' => { s' with disrupted := s'.disrupted || s'.done })
    else none

/-- The values in the queue, read off the linked list by following `next` from head to tail (at most `fuel` nodes). -/
def contents {α : Type} (s : St α) : Nat → Nat → List α
  | 0, _ => []
  | fuel + 1, a =>
    if a = s.tail then [] else
    match (s.heap a).data, (s.heap a).next with
    | some v, some nx => v :: contents s fuel nx
    | _, _ => []

end Mcut.Queue
