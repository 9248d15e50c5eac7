import Verif.Model.Util
/-!
# Contexts, events, manager threads and client calls

The asynchronous part of the API: `event_t` (include/mcut/internal/frontend.h:313-470), `context_t`'s manager threads
and `prepare_and_submit_API_task` (frontend.h:528-552, 583-640, 691-821) and the client-side operations on contexts
and events (source/frontend.cpp:69-93, 419-506, 593-640, 642-694, 3712-3776 with their wrappers in source/mcut.cpp).

Any number of client threads and manager threads take atomic steps in an arbitrary order; one label of type `Act` is
one step of one thread, and it carries every choice that the code leaves to the environment (which call is made with
which arguments, what the command computed, which queues were seen empty). Loads and stores of `std::atomic` fields are
separate steps wherever another thread could act in between; a section holding `m_callback_mutex` is one step (its
variables are touched under that mutex only, and `m_finished`, which it reads last, is where it takes effect). Tables
are lists in the order of `push_front`; each table operation is one step (this is what C16 proves about
`threadsafe_list`), and each queue operation is one step (C15).

Not modelled: time stamps and profiling, API calls made from inside callbacks, thread creation failure, the blocking
`join` at the end of context destruction (the destroyed context's managers just go on to exit). Client assumption built
into the labels: an event handle passed to a call was returned by an earlier call, or is a value (below 0xDECAF)
that never is a handle; handles are not guessed before they are returned.
-/
namespace Mcut.Api

/-- Return codes — include/mcut/mcut.h:202-208 (`MC_RESULT_MAX_ENUM` = 0xFFFFFFFF read as a 32-bit signed value). -/
abbrev NO_ERROR : Int := 0
abbrev INVALID_OPERATION : Int := -2
abbrev INVALID_VALUE : Int := -4
abbrev OUT_OF_MEMORY : Int := -8
abbrev MAX_ENUM : Int := -1

/-- `McEventCommandExecStatus` — include/mcut/mcut.h:449-453. The value stored by the constructor is overwritten by
`log_submit_time` before the handle is returned and is left out. -/
inductive CStat where
  | submitted | running | complete
deriving DecidableEq, Repr

/-- Threads: manager `t` of context `c`, or client thread `i`. -/
inductive Actor where
  | mg (c t : Nat)
  | cl (i : Nat)
deriving DecidableEq, Repr

/-- `event_t` — frontend.h:313-352. `fn` is the registered callback, represented by the number of its registration.
`ready`: the shared state of `m_future` is ready. `called`: the packaged task of a user event has been invoked.
`hold`: the threads that own a `shared_ptr` to the object, `dead`: its destructor has run. -/
structure Ev where
  user : Bool
  tid : Option Nat
  stat : CStat
  fin : Bool
  rt : Int
  ready : Bool
  called : Bool
  fn : Option Nat
  inv : Bool
  hold : List Actor
  dead : Bool
deriving DecidableEq, Repr

/-- The constructor of `event_t` followed by `log_submit_time` — frontend.h:375-397, 416-424. -/
def newEv (user : Bool) (hold : List Actor) : Ev :=
  ⟨user, none, .submitted, false, NO_ERROR, false, false, none, true, hold, false⟩

/-- A submitted packaged task — frontend.h:762-813: its event and its copy of the wait list. -/
structure Task where
  ev : Nat
  waits : List Nat
deriving DecidableEq, Repr

/-- Where a manager thread is — frontend.h:528-552 and 762-813. -/
inductive MPc where
  | idle                                   -- in try_pop / wait_and_pop
  | lookup (k : Task) (todo : List Nat)    -- wait_for_events_impl, before the table lookup of the head of `todo`
  | block (k : Task) (w : Nat) (rest : List Nat) -- in `m_future.wait()` of `w`
  | skip (k : Task)                        -- returning without having run the command
  | run (k : Task)                         -- in `api_fn()`
  | ran (k : Task) (r : Int)               -- before `m_finished = true`
  | fin1 (k : Task) (r : Int)              -- before `m_runtime_exec_status = r`
  | fin2 (k : Task) (r : Int)              -- before the callback section
  | fin3 (k : Task) (r : Int)              -- before `log_end_time()`
  | fin4 (k : Task) (r : Int)              -- before the packaged task makes its future ready
  | exited
deriving DecidableEq, Repr

/-- Where a client thread is. -/
inductive CPc where
  | idle
  | submit (c h : Nat) (waits : List Nat) (blk : Bool) -- prepare_and_submit: event created, task not yet queued
  | bwait (c h : Nat)                      -- blocking call: before the lookup in wait_for_events_impl
  | bblock (c h : Nat)                     -- blocking call: in `m_future.wait()`
  | brel (c h : Nat) (r : Int)             -- blocking call: before release_events_impl
  | sig (h : Nat) (code : Int)             -- set_user_event_status_impl, event found
  | sig1 (h : Nat) (code : Int)            -- packaged task ran, future not yet ready
  | sig2 (h : Nat) (code : Int)            -- before the switch
  | sig3 (h : Nat) (r : Int)               -- before `m_finished = true`
  | sig4 (h : Nat) (r : Int)               -- before `m_runtime_exec_status = r`
  | sig5 (h : Nat) (r : Int)               -- before the callback section
  | setcb (h : Nat)                        -- set_event_callback_impl, event found
  | wait (all todo : List Nat)             -- mcWaitForEvents, before the lookup of the head of `todo`
  | waitBlock (all : List Nat) (w : Nat) (rest : List Nat) -- in `m_future.wait()` of `w`
  | rel (todo : List Nat)                  -- mcReleaseEvents
  | relCtx (c : Nat)                       -- mcReleaseContext: removed from the table, `context_ptr` still held
deriving DecidableEq, Repr

/-- Why a command was not executed. -/
inductive Why where
  | depFailed (w : Nat) (r : Int)
  | depUnknown (w : Nat)
  | dropped
deriving DecidableEq, Repr

/-- What ran a callback. -/
inductive Via where
  | registration | completion | destructor
deriving DecidableEq, Repr

/-- How a wait ended. -/
inductive WaitOut where
  | ok | failed (w : Nat) (r : Int) | unknown (w : Nat)
deriving DecidableEq, Repr

/-- A finished client call. -/
inductive Call where
  | createContext (c : Nat)
  | createUserEvent (c h : Nat)
  | enqueue (c h : Nat) (waits : List Nat)   -- `h` is 0 when no event was returned
  | blocking (c h : Nat)
  | setUserEventStatus (h : Nat) (code : Int)
  | setEventCallback (h : Nat)
  | waitForEvents (ws : List Nat) (out : WaitOut)
  | releaseEvents
  | releaseContext (c : Nat)
deriving DecidableEq, Repr

/-- Observable history of the commands. -/
inductive Obs where
  | submit (c t h : Nat)                     -- the task of event `h` was pushed to queue `t` of context `c`
  | start (c t h : Nat)                      -- the command's work began
  | stop (c t h : Nat) (r : Int)             -- the command's work ended with result `r`
  | skip (c t h : Nat)                       -- the command will never be executed
deriving DecidableEq, Repr

/-- Observable history of callbacks. -/
inductive CbObs where
  | reg (h k : Nat)                          -- registration number `k`, for event `h`
  | call (h k : Nat) (via : Via)             -- the callback of registration `k` was run
deriving DecidableEq, Repr

/-- History variable: how far the command (or user event) behind an event has got. -/
inductive Loc where
  | unborn
  | alloc (i : Nat) | leaked
  | queued (c t : Nat) | pre (c t : Nat) | skipping (c t : Nat) | skipped (c t : Nat)
  | running (c t : Nat) | ran (c t : Nat) (r : Int) | fin1 (c t : Nat) (r : Int) | fin2 (c t : Nat) (r : Int)
  | fin3 (c t : Nat) (r : Int) | fin4 (c t : Nat) (r : Int) | over (c t : Nat) (r : Int)
  | uNew | u1 (i : Nat) | u2 (i : Nat) | uBad | u3 (i : Nat) (r : Int) | u4 (i : Nat) (r : Int) | u5 (i : Nat) (r : Int)
  | uOver (r : Int)
deriving DecidableEq, Repr

/-- The library's state, with history variables at the end. -/
structure St where
  counter : Nat                  -- g_objects_counter
  inited : Bool                  -- g_objects_counter_init_flag
  ctxs : List Nat                -- g_contexts
  nq : Nat → Nat                 -- number of queues = manager threads of a context
  done : Nat → Bool              -- m_done
  ctxHold : Nat → List Actor     -- owners of a shared_ptr to the context, other than the table
  queue : Nat → Nat → List Task
  mgr : Nat → Nat → MPc
  ccs : Nat → List Nat           -- connected_components of a context
  evs : List Nat                 -- g_events
  ev : Nat → Ev
  cl : Nat → CPc
  ub : Bool                      -- undefined behaviour or abnormal termination has happened
  regs : Nat                     -- history: number of callback registrations
  loc : Nat → Loc                -- history
  waits : Nat → List Nat         -- history: wait list given for a command
  issued : List Nat              -- history: handles handed out by the counter, newest first
  returned : List Nat            -- history: handles returned to clients
  why : Nat → Option Why         -- history: why a command is not executed
  log : List Obs                 -- history: commands, newest first
  cbs : List CbObs               -- history: callbacks, newest first
  rets : List (Nat × Call × Int) -- history: finished client calls, newest first

/-- Program start. -/
def init : St :=
  ⟨0, false, [], fun _ => 0, fun _ => false, fun _ => [], fun _ _ => [], fun _ _ => .idle, fun _ => [], [],
   fun _ => newEv false [], fun _ => .idle, false, 0, fun _ => .unborn, fun _ => [], [], [], fun _ => none,
   [], [], []⟩

/-- Two-argument point update. -/
def upd2 {α : Type} (f : Nat → Nat → α) (c t : Nat) (v : α) : Nat → Nat → α :=
  fun c' t' => if c' = c ∧ t' = t then v else f c' t'

/-- Write one event object and its history phase. -/
def setEv (s : St) (h : Nat) (e : Ev) (l : Loc) : St := { s with ev := upd s.ev h e, loc := upd s.loc h l }

/-- Append to the history of commands. -/
def obs (s : St) (o : Obs) : St := { s with log := o :: s.log }

/-- Append to the history of callbacks. -/
def obsCb (s : St) (o : CbObs) : St := { s with cbs := o :: s.cbs }

/-- Record why a command is not executed. -/
def setWhy (s : St) (h : Nat) (w : Why) : St := { s with why := upd s.why h (some w) }

/-- Move a manager thread. -/
def setM (s : St) (c t : Nat) (p : MPc) : St := { s with mgr := upd2 s.mgr c t p }

/-- Move a client thread. -/
def setC (s : St) (i : Nat) (p : CPc) : St := { s with cl := upd s.cl i p }

/-- A client call returns. -/
def ret (s : St) (i : Nat) (call : Call) (r : Int) : St :=
  { s with cl := upd s.cl i .idle, rets := (i, call, r) :: s.rets }

/-- Undefined behaviour. -/
def bad (s : St) : St := { s with ub := true }

/-- Take a `shared_ptr` to an event. -/
def holdEv (s : St) (h : Nat) (a : Actor) : St :=
  { s with ev := upd s.ev h { s.ev h with hold := a :: (s.ev h).hold } }

/-- `~event_t` — frontend.h:399-408: runs when the last owner lets go. -/
def destroyEv (s : St) (h : Nat) : St :=
  let e := s.ev h
  let s1 := { s with ev := upd s.ev h { e with dead := true } }
  match e.fn with
  | some k => if e.inv = false ∧ e.rt = NO_ERROR then obsCb s1 (.call h k .destructor) else s1
  | none => s1

/-- Run the destructor if nobody owns the object. -/
def reapEv (s : St) (h : Nat) : St :=
  if (s.ev h).hold = [] ∧ h ∉ s.evs ∧ (s.ev h).dead = false then destroyEv s h else s

/-- Let go of a `shared_ptr` to an event. -/
def dropEv (s : St) (h : Nat) (a : Actor) : St :=
  reapEv { s with ev := upd s.ev h { s.ev h with hold := (s.ev h).hold.erase a } } h

/-- `g_events.remove_if(handle == h)` — frontend.cpp:3722. -/
def removeEv (s : St) (h : Nat) : St := reapEv { s with evs := s.evs.filter (· ≠ h) } h

/-- The context object exists. -/
def ctxAlive (s : St) (c : Nat) : Prop := c ∈ s.ctxs ∨ s.ctxHold c ≠ []

instance (s : St) (c : Nat) : Decidable (ctxAlive s c) := inferInstanceAs (Decidable (_ ∨ _))

def holdCtx (s : St) (c : Nat) (a : Actor) : St := { s with ctxHold := upd s.ctxHold c (a :: s.ctxHold c) }

/-- Let go of a `shared_ptr` to a context; the last owner runs `~context_t` (frontend.h:625-650), which sets `m_done`.
If the last owner is one of the context's own manager threads it joins itself: `std::thread::join` throws inside a
destructor. -/
def dropCtx (s : St) (c : Nat) (a : Actor) : St :=
  let hs := (s.ctxHold c).erase a
  let s1 := { s with ctxHold := upd s.ctxHold c hs }
  if hs = [] ∧ c ∉ s.ctxs then
    let s2 := { s1 with done := upd s1.done c true }
    match a with
    | .mg _ _ => bad s2
    | .cl _ => s2
  else s1

/-- The locked part of `notify_task_complete` — frontend.h:463-469. -/
def notifyCb (s : St) (h : Nat) (l : Loc) : St :=
  let e := s.ev h
  match e.fn with
  | some k =>
    if e.inv = false then obsCb (setEv s h { e with inv := true } l) (.call h k .completion)
    else setEv s h e l
  | none => setEv s h e l

/-- `set_callback_data` — frontend.h:441-455. -/
def setCb (s : St) (h : Nat) : St :=
  let e := s.ev h
  let k := s.regs
  let s1 := obsCb { s with regs := s.regs + 1 } (.reg h k)
  if e.fin = true then
    obsCb (setEv s1 h { e with fn := some k, inv := true } (s.loc h)) (.call h k .registration)
  else setEv s1 h { e with fn := some k, inv := false } (s.loc h)

/-- The loop over the wait list when a task is submitted — frontend.h:728-749. `error`: unknown event. Otherwise the
responsible thread of the first unfinished command in the list, if there is one. -/
def resolve (s : St) : List Nat → Except Unit (Option Nat)
  | [] => .ok none
  | w :: ws =>
    if w ∉ s.evs then .error ()
    else if (s.ev w).fin = false ∧ (s.ev w).user = false then .ok (s.ev w).tid
    else resolve s ws

/-- The search for an idle queue — frontend.h:753-771: indices 1, …, n-1, 0 in this order, the first one seen empty,
else 0. `seen` holds what `empty()` returned for each index (the queues change concurrently, so nothing is assumed about it). -/
def pickQueue (n : Nat) (seen : Nat → Bool) : Nat :=
  match ((List.range n).map (fun i => (i + 1) % n)).find? seen with
  | some i => i
  | none => 0

/-- A client may pass this value where an event handle is expected. -/
def okArg (s : St) (h : Nat) : Prop := h ∈ s.returned ∨ h < 0xDECAF

instance (s : St) (h : Nat) : Decidable (okArg s h) := inferInstanceAs (Decidable (_ ∨ _))

/-- Next value of the counter, with the once-only initialisation of `create_context_impl` (frontend.cpp:77). -/
def base (s : St) : Nat := if s.inited then s.counter else 0xDECAF

/-- mcCreateContext — mcut.cpp:45-70, frontend.cpp:69-93, frontend.h:585-620. Two managers with
`MC_OUT_OF_ORDER_EXEC_MODE_ENABLE`, else one. -/
def createCtx (s : St) (i : Nat) (ooo : Bool) : St :=
  let h := base s
  ret { s with
    counter := h + 1, inited := true, ctxs := h :: s.ctxs, nq := upd s.nq h (if ooo then 2 else 1)
    issued := h :: s.issued, returned := h :: s.returned } i (.createContext h) NO_ERROR

/-- mcCreateUserEvent — mcut.cpp:285-312, frontend.cpp:419-463. -/
def createUser (s : St) (i c : Nat) : St :=
  if c ∉ s.ctxs then ret s i (.createUserEvent c 0) INVALID_VALUE
  else
    let h := s.counter
    ret (setEv { s with
      counter := h + 1, evs := h :: s.evs, issued := h :: s.issued, returned := h :: s.returned }
      h (newEv true []) .uNew) i (.createUserEvent c h) NO_ERROR

/-- First half of an mcEnqueue* call (its parameter checks are in Model/Params): look up the context, create the event
and publish it — frontend.cpp:659-669 and frontend.h:705-719 (same code at frontend.cpp:880-889, 940-948, 3683-3691). -/
def beginEnqueue (s : St) (i c : Nat) (ws : List Nat) (blk : Bool) : St :=
  if c ∉ s.ctxs then ret s i (if blk then .blocking c 0 else .enqueue c 0 ws) INVALID_VALUE
  else
    let h := s.counter
    let s1 := holdCtx s c (.cl i)
    setC (setEv { s1 with
      counter := h + 1, evs := h :: s.evs, issued := h :: s.issued, waits := upd s.waits h ws }
      h (newEv false [.cl i]) (.alloc i)) i (.submit c h ws blk)

/-- Second half: choose the queue, push the task, return the handle — frontend.h:721-821. An unknown event makes it
throw: the new event stays in the table. An index outside `m_queues` is undefined behaviour. -/
def finishEnqueue (s : St) (i : Nat) (seen : Nat → Bool) : Option St :=
  match s.cl i with
  | .submit c h ws blk =>
    match resolve s ws with
    | .error _ =>
      let s1 := setEv s h (s.ev h) .leaked
      some (ret (dropCtx (dropEv s1 h (.cl i)) c (.cl i)) i (if blk then .blocking c 0 else .enqueue c 0 ws) INVALID_VALUE)
    | .ok ot =>
      let t := ot.getD (pickQueue (s.nq c) seen)
      if t < s.nq c then
        let s1 := obs (setEv { s with queue := upd2 s.queue c t (s.queue c t ++ [⟨h, ws⟩]) }
          h { s.ev h with tid := some t } (.queued c t)) (.submit c t h)
        let s2 := dropCtx (dropEv s1 h (.cl i)) c (.cl i)
        some (if blk then setC s2 i (.bwait c h)
              else ret { s2 with returned := h :: s2.returned } i (.enqueue c h ws) NO_ERROR)
      else some (bad s)
  | _ => none

/-- The blocking calls after the enqueue: `wait_for_events_impl(1, &event)` and `release_events_impl(1, &event)` —
mcut.cpp:565-581, 728-742, 807-822. These two are not inside a `try`: an exception would leave an `extern "C"`
function. -/
def blockStep (s : St) (i : Nat) : Option St :=
  match s.cl i with
  | .bwait c h => if h ∈ s.evs then some (setC (holdEv s h (.cl i)) i (.bblock c h)) else some (bad s)
  | .bblock c h =>
    if (s.ev h).ready then some (setC (dropEv s h (.cl i)) i (.brel c h (s.ev h).rt)) else none
  | .brel c h r =>
    if h ∈ s.evs then some (ret (removeEv s h) i (.blocking c h) r) else some (bad s)
  | _ => none

/-- mcSetUserEventStatus, from the table lookup on — mcut.cpp:315-340, frontend.cpp:471-506. One call of this function
is one step. -/
def signalStep (s : St) (i : Nat) : Option St :=
  match s.cl i with
  | .sig h code =>
    let e := s.ev h
    if e.user = false then some (bad s)               -- null `m_user_API_command_task_emulator`
    else if e.called then                             -- std::future_error, a std::logic_error
      some (ret (dropEv s h (.cl i)) i (.setUserEventStatus h code) MAX_ENUM)
    else some (setC (setEv s h { e with called := true, stat := .running } (.u1 i)) i (.sig1 h code))
  | .sig1 h code => some (setC (setEv s h { s.ev h with ready := true } (.u2 i)) i (.sig2 h code))
  | .sig2 h code =>
    if code = 4 then some (setC (setEv s h { s.ev h with stat := .complete } (.u3 i NO_ERROR)) i (.sig3 h NO_ERROR))
    else if code = INVALID_OPERATION ∨ code = INVALID_VALUE ∨ code = OUT_OF_MEMORY then
      some (setC (setEv s h (s.ev h) (.u3 i code)) i (.sig3 h code))
    else some (ret (dropEv (setEv s h (s.ev h) .uBad) h (.cl i)) i (.setUserEventStatus h code) INVALID_VALUE)
  | .sig3 h r => some (setC (setEv s h { s.ev h with fin := true } (.u4 i r)) i (.sig4 h r))
  | .sig4 h r => some (setC (setEv s h { s.ev h with rt := r } (.u5 i r)) i (.sig5 h r))
  | .sig5 h r =>
    some (ret (dropEv (notifyCb s h (.uOver r)) h (.cl i)) i (.setUserEventStatus h (if r = 0 then 4 else r)) NO_ERROR)
  | _ => none

/-- mcWaitForEvents — mcut.cpp:376-412, frontend.cpp:593-620. -/
def waitStep (s : St) (i : Nat) : Option St :=
  match s.cl i with
  | .wait all [] => some (ret s i (.waitForEvents all .ok) NO_ERROR)
  | .wait all (w :: rest) =>
    if w ∈ s.evs then some (setC (holdEv s w (.cl i)) i (.waitBlock all w rest))
    else some (ret s i (.waitForEvents all (.unknown w)) INVALID_VALUE)
  | .waitBlock all w rest =>
    if (s.ev w).ready then
      if (s.ev w).rt = NO_ERROR then some (setC (dropEv s w (.cl i)) i (.wait all rest))
      else some (ret (dropEv s w (.cl i)) i (.waitForEvents all (.failed w (s.ev w).rt)) INVALID_VALUE)
    else none
  | _ => none

/-- mcReleaseEvents — mcut.cpp:825-855, frontend.cpp:3712-3734. -/
def relStep (s : St) (i : Nat) : Option St :=
  match s.cl i with
  | .rel [] => some (ret s i .releaseEvents NO_ERROR)
  | .rel (h :: rest) =>
    if h ∈ s.evs then some (setC (removeEv s h) i (.rel rest)) else some (ret s i .releaseEvents INVALID_VALUE)
  | _ => none

/-- A task is destroyed without being run (broken promise makes its future ready). -/
def dropTask (s : St) (c t : Nat) (k : Task) : St :=
  setWhy (obs (setEv s k.ev { s.ev k.ev with ready := true } (.skipped c t)) (.skip c t k.ev)) k.ev .dropped

/-- Manager thread: take the next task — frontend.h:533-548. -/
def popStep (s : St) (c t : Nat) : Option St :=
  match s.mgr c t, s.queue c t with
  | .idle, k :: rest =>
    let s1 := { s with queue := upd2 s.queue c t rest }
    if s.done c then some (setM (dropTask s1 c t k) c t .exited)
    else some (setM (setEv s1 k.ev (s.ev k.ev) (.pre c t)) c t (.lookup k k.waits))
  | .idle, [] => if s.done c then some (setM s c t .exited) else none
  | .exited, k :: rest => some (dropTask { s with queue := upd2 s.queue c t rest } c t k) -- ~thread_safe_queue
  | _, _ => none

/-- Manager thread: the wait-list part of a task and the start of the command — frontend.h:763-787,
frontend.cpp:593-620. -/
def depStep (s : St) (c t : Nat) : Option St :=
  match s.mgr c t with
  | .lookup k (w :: rest) =>
    if w ∈ s.evs then some (setM (holdEv s w (.mg c t)) c t (.block k w rest))
    else some (setM (setWhy (obs (setEv s k.ev (s.ev k.ev) (.skipping c t)) (.skip c t k.ev)) k.ev (.depUnknown w))
      c t (.skip k))
  | .block k w rest =>
    if (s.ev w).ready then
      if (s.ev w).rt = NO_ERROR then some (setM (dropEv s w (.mg c t)) c t (.lookup k rest))
      else some (setM (setWhy (obs (setEv (dropEv s w (.mg c t)) k.ev ((dropEv s w (.mg c t)).ev k.ev) (.skipping c t))
        (.skip c t k.ev)) k.ev (.depFailed w (s.ev w).rt)) c t (.skip k))
    else none
  | .lookup k [] =>
    if (s.ev k.ev).dead then some (bad s)              -- `event_weak_ptr.lock()` is null and is dereferenced
    else
      let s1 := holdEv s k.ev (.mg c t)
      let s2 := obs (setEv s1 k.ev { s1.ev k.ev with stat := .running } (.running c t)) (.start c t k.ev)
      some (setM (if ctxAlive s c then holdCtx s2 c (.mg c t) else s2) c t (.run k))
  | .skip k => some (setM (setEv s k.ev { s.ev k.ev with ready := true } (.skipped c t)) c t .idle)
  | _ => none

/-- Manager thread: the command's body ends with result `r` (after CATCH_POSSIBLE_EXCEPTIONS and the log-string rule,
frontend.h:69-90, 789-803), and the completion sequence — frontend.h:805-806, 458-469, 436-442. -/
def runStep (s : St) (c t : Nat) (r : Int) : Option St :=
  match s.mgr c t with
  | .run k =>
    if r = NO_ERROR ∨ r = INVALID_OPERATION ∨ r = INVALID_VALUE ∨ r = MAX_ENUM then
      some (setM (obs (setEv (if Actor.mg c t ∈ s.ctxHold c then dropCtx s c (.mg c t) else s) k.ev (s.ev k.ev)
        (.ran c t r)) (.stop c t k.ev r)) c t (.ran k r))
    else none
  | .ran k r => some (setM (setEv s k.ev { s.ev k.ev with fin := true } (.fin1 c t r)) c t (.fin1 k r))
  | .fin1 k r => some (setM (setEv s k.ev { s.ev k.ev with rt := r } (.fin2 c t r)) c t (.fin2 k r))
  | .fin2 k r => some (setM (notifyCb s k.ev (.fin3 c t r)) c t (.fin3 k r))
  | .fin3 k r =>
    some (setM (dropEv (setEv s k.ev { s.ev k.ev with stat := .complete } (.fin4 c t r)) k.ev (.mg c t)) c t (.fin4 k r))
  | .fin4 k r => some (setM (setEv s k.ev { s.ev k.ev with ready := true } (.over c t r)) c t .idle)
  | _ => none

/-- A running dispatch stores a connected component — frontend.cpp and source/preproc.cpp, every
`g_objects_counter.fetch_add` followed by `connected_components.push_front`. -/
def newCC (s : St) (c t : Nat) : Option St :=
  match s.mgr c t with
  | .run _ =>
    if Actor.mg c t ∈ s.ctxHold c then
      some { s with counter := s.counter + 1, issued := s.counter :: s.issued, ccs := upd s.ccs c (s.counter :: s.ccs c) }
    else none
  | _ => none

/-- Labels. -/
inductive Act where
  | createCtx (i : Nat) (ooo : Bool)
  | createUser (i c : Nat)
  | enqueue (i c : Nat) (ws : List Nat) (blk : Bool)
  | enqueue2 (i : Nat) (seen : Nat → Bool)
  | blocking (i : Nat)
  | signal (i h : Nat) (code : Int)
  | signal2 (i : Nat)
  | setCb (i h : Nat)
  | setCb2 (i : Nat)
  | wait (i : Nat) (ws : List Nat)
  | wait2 (i : Nat)
  | release (i : Nat) (hs : List Nat)
  | release2 (i : Nat)
  | releaseCtx (i c : Nat)
  | releaseCtx2 (i : Nat)
  | pop (c t : Nat)
  | dep (c t : Nat)
  | run (c t : Nat) (r : Int)
  | newCC (c t : Nat)

/-- One step; `none`: not enabled. Nothing happens after undefined behaviour. Blocking calls pass no wait list
(mcut.cpp:560-562, 726, 804). -/
def step (s : St) (a : Act) : Option St :=
  if s.ub then none else
  match a with
  | .createCtx i ooo => if s.cl i = .idle then some (createCtx s i ooo) else none
  | .createUser i c => if s.cl i = .idle then some (createUser s i c) else none
  | .enqueue i c ws blk =>
    if s.cl i = .idle ∧ (∀ w ∈ ws, okArg s w) ∧ (blk = true → ws = []) then some (beginEnqueue s i c ws blk) else none
  | .enqueue2 i seen => finishEnqueue s i seen
  | .blocking i => blockStep s i
  | .signal i h code =>                               -- mcut.cpp:315-327, frontend.cpp:473-477
    if s.cl i = .idle ∧ okArg s h then
      if h ∈ s.evs then some (setC (holdEv s h (.cl i)) i (.sig h code))
      else some (ret s i (.setUserEventStatus h code) INVALID_VALUE)
    else none
  | .signal2 i => signalStep s i
  | .setCb i h =>                                     -- mcut.cpp:414-433, frontend.cpp:622-634
    if s.cl i = .idle ∧ okArg s h then
      if h ∈ s.evs then some (setC (holdEv s h (.cl i)) i (.setcb h))
      else some (ret s i (.setEventCallback h) INVALID_VALUE)
    else none
  | .setCb2 i =>                                      -- frontend.cpp:636
    match s.cl i with
    | .setcb h => some (ret (dropEv (setCb s h) h (.cl i)) i (.setEventCallback h) NO_ERROR)
    | _ => none
  | .wait i ws => if s.cl i = .idle ∧ ∀ w ∈ ws, okArg s w then some (setC s i (.wait ws ws)) else none
  | .wait2 i => waitStep s i
  | .release i hs => if s.cl i = .idle ∧ ∀ w ∈ hs, okArg s w then some (setC s i (.rel hs)) else none
  | .release2 i => relStep s i
  | .releaseCtx i c =>                                -- mcut.cpp:890-912, frontend.cpp:3767-3776
    if s.cl i = .idle then
      if c ∈ s.ctxs then
        some (setC (holdCtx { s with ctxs := s.ctxs.filter (· ≠ c) } c (.cl i)) i (.relCtx c))
      else some (ret s i (.releaseContext c) INVALID_VALUE)
    else none
  | .releaseCtx2 i =>
    match s.cl i with
    | .relCtx c => some (ret (dropCtx s c (.cl i)) i (.releaseContext c) NO_ERROR)
    | _ => none
  | .pop c t => if t < s.nq c then popStep s c t else none
  | .dep c t => if t < s.nq c then depStep s c t else none
  | .run c t r => if t < s.nq c then runStep s c t r else none
  | .newCC c t => if t < s.nq c then newCC s c t else none

/-- Reachable states: after any interleaving of client calls and manager steps. -/
def Reachable (s : St) : Prop := Reach step init s

end Mcut.Api
