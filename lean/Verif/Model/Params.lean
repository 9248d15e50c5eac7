import Verif.Model.Release
import Verif.Model.Context

/-!
# Parameter checks of all entry points (source/mcut.cpp) and `mcGetEventInfo`

Every entry point of the library, from the call to the point where its arguments are accepted. What happens after that is a
parameter (`rest`, `block`): it is the subject of the other models, and may do anything, including throw. Handle 0 is the null handle; a
pointer argument is a `Bool` (`true`: not null), or its value where the code reads through it.
-/
namespace Mcut.Params

open Mcut.Release (Exc Body Reply code api NO_ERROR INVALID_VALUE INVALID_OPERATION MAX_ENUM)

/-- `McFlags` and the enums — include/mcut/mcut.h:145. -/
abbrev Word := BitVec 32

/-- Arguments about waiting of the mcEnqueue… functions: length of the wait list, its pointer, and where to store the event. -/
structure Wait where
  count : Nat
  list : Bool
  event : Bool

/-- The two input meshes of a dispatch: pointers and counts. -/
structure MeshArgs where
  vertices : Bool
  indices : Bool
  sizes : Bool
  numVertices : Nat
  numFaces : Nat

/-- All entry points with the arguments their checks read — include/mcut/mcut.h:540-1380. Real numbers are integers here: the checks
compare with 0 and 1 only (`offset` in units of 1/1000). -/
inductive Call
  | createContext (out : Bool)
  | createContextWithHelpers (out : Bool)
  | debugMessageCallback (ctx : Nat) (cb : Bool)
  | getDebugMessageLog (ctx count bufSize : Nat) (numFetched : Bool)
  | debugMessageControl (ctx : Nat) (source type severity : Word)
  | getInfo (ctx : Nat) (info : Word) (bytes : Nat) (mem numBytes : Bool)
  | bindState (ctx : Nat) (info : Word) (bytes : Nat) (mem : Bool)
  | createUserEvent (out : Bool) (ctx : Nat)
  | setUserEventStatus (ev : Nat) (status : Int)
  | getEventInfo (ev : Nat) (info : Word) (bytes : Nat) (mem numBytes : Bool)
  | waitForEvents (count : Nat) (list : Bool)
  | setEventCallback (ev : Nat) (cb : Bool)
  | enqueueDispatch (ctx : Nat) (flags : Word) (src cut : MeshArgs) (w : Wait)
  | dispatch (ctx : Nat) (flags : Word) (src cut : MeshArgs)
  | enqueuePlanarSection (ctx : Nat) (flags : Word) (src : MeshArgs) (normal : Option (Int × Int × Int)) (offset : Int) (w : Wait)
  | enqueueGetComponents (ctx : Nat) (type : Word) (numEntries : Nat) (comps num : Bool) (w : Wait)
  | getComponents (ctx : Nat) (type : Word) (numEntries : Nat) (comps num : Bool)
  | enqueueGetData (ctx comp : Nat) (flags : Word) (bytes : Nat) (mem numBytes : Bool) (w : Wait)
  | getData (ctx comp : Nat) (flags : Word) (bytes : Nat) (mem numBytes : Bool)
  | releaseEvents (count : Nat) (list : Bool)
  | releaseComponents (ctx count : Nat) (list : Bool)
  | releaseContext (ctx : Nat)

/-- The library: its state, the lookups of handles, and what the calls do once their arguments and handles are accepted. `block` is
what the blocking variants do after a successful enqueue (wait for the event, take its status, release it). -/
structure Lib (σ : Type) where
  hasCtx : σ → Nat → Bool
  hasEv : σ → Nat → Bool
  rest : Call → σ → Body σ
  block : Call → σ → Reply σ

variable {σ : Type}

/-- Start of every `…_impl` that takes a context: `g_contexts.find_first_if`, `throw std::invalid_argument("invalid context")` —
for example frontend.cpp:103-111. -/
def withCtx (L : Lib σ) (ctx : Nat) (k : σ → Body σ) (s : σ) : Body σ := if L.hasCtx s ctx then k s else .throws s .invalidArgument

/-- The same for events — for example frontend.cpp:516-520. -/
def withEv (L : Lib σ) (ev : Nat) (k : σ → Body σ) (s : σ) : Body σ := if L.hasEv s ev then k s else .throws s .invalidArgument

/-- Submission of a command and `*pEvent = event_handle` — for example frontend.cpp:668-697, 938-979, 3690-3710. `MCUT_ASSERT(pEvent != nullptr)`
does nothing in a release build. -/
def submit (w : Wait) (k : σ → Body σ) (s : σ) : Body σ :=
  match k s with
  | .ok s' => if w.event then .ok s' else .ub
  | b => b

/-- Checks on the wait list — mcut.cpp:498-503 and the same lines of the other mcEnqueue… functions. -/
def waitChecks (w : Wait) : List Bool :=
  [!w.list && decide (w.count > 0), w.list && decide (w.count = 0), !w.list && decide (w.count = 0) && !w.event]

/-- Missing `else` after the first check of mcSetEventCallback (mcut.cpp:419-430) and mcEnqueueGetConnectedComponentData (756-776): the first check
(`first`: it failed) sets the log string only, the other checks and the body still run; in the end a non-empty log string turns NO_ERROR into
INVALID_VALUE. -/
def apiLate (s : σ) (first : Bool) (checks : List Bool) (body : σ → Body σ) : Reply σ :=
  match api s checks body with
  | .ret s' r => .ret s' (if first && decide (r = NO_ERROR) then INVALID_VALUE else r)
  | .ub => .ub

/-- Flag bits of mcDispatch — include/mcut/mcut.h:380-388. -/
def FLOAT : Word := 1#32 <<< 0
/-- include/mcut/mcut.h:381 -/ def DOUBLE : Word := 1#32 <<< 1
/-- include/mcut/mcut.h:382 -/ def THROUGH_CUTS : Word := 1#32 <<< 2
/-- include/mcut/mcut.h:388 -/ def LOCATION_UNDEFINED : Word := 1#32 <<< 7
/-- include/mcut/mcut.h:503 -/ def EV_RUNTIME : Word := 1#32 <<< 2
/-- include/mcut/mcut.h:504 -/ def EV_SUBMIT : Word := 1#32 <<< 3
/-- include/mcut/mcut.h:505 -/ def EV_START : Word := 1#32 <<< 4
/-- include/mcut/mcut.h:506 -/ def EV_END : Word := 1#32 <<< 5
/-- include/mcut/mcut.h:507 -/ def EV_STATUS : Word := 1#32 <<< 6
/-- include/mcut/mcut.h:508 -/ def EV_CONTEXT : Word := 1#32 <<< 7
/-- include/mcut/mcut.h:509 -/ def EV_TYPE : Word := 1#32 <<< 8

/-- Checks on the flags of a dispatch — mcut.cpp:467-475. -/
def flagChecks (flags : Word) : List Bool :=
  [decide (flags = 0), decide (flags &&& THROUGH_CUTS ≠ 0) && decide (flags &&& LOCATION_UNDEFINED ≠ 0),
   decide (flags &&& FLOAT = 0) && decide (flags &&& DOUBLE = 0)]

/-- Checks on one input mesh — mcut.cpp:476-486 and 487-497; the check of the face-size array is commented out. -/
def meshChecks (m : MeshArgs) : List Bool :=
  [!m.vertices, decide (m.numVertices < 3), !m.indices, decide (m.numFaces < 1)]

/-- Checks of mcGetEventInfo — mcut.cpp:347-356 (`sizeof(McResult)` = `sizeof(McFlags)` = 4, `sizeof(McSize)` = 8). -/
def eventInfoChecks (ev : Nat) (info : Word) (bytes : Nat) (mem : Bool) : List Bool :=
  [decide (ev = 0), decide (bytes ≠ 0) && !mem,
   decide (info = EV_RUNTIME) && (mem && decide (bytes ≠ 4)),
   decide (info = EV_STATUS) && (mem && decide (bytes ≠ 4)),
   (decide (info = EV_SUBMIT) || decide (info = EV_START) || decide (info = EV_END)) && (mem && decide (bytes ≠ 8))]

open Mcut.Ctx (CONTEXT_FLAGS MAX_DEBUG_MESSAGE_LENGTH GP_CONSTANT GP_ATTEMPTS WINDING_ORDER DISPATCH_INTERSECTION_TYPE SOURCE_ALL SOURCE_KERNEL
  TYPE_ALL TYPE_DEPRECATED TYPE_ERROR TYPE_OTHER SEVERITY_HIGH SEVERITY_MEDIUM SEVERITY_LOW SEVERITY_NOTIFICATION SEVERITY_ALL)

/-- The non-blocking entry points — source/mcut.cpp, one case per function (line numbers at each case). -/
def exec1 (L : Lib σ) (s : σ) (c : Call) : Reply σ :=
  match c with
  | .createContext out => api s [!out] (L.rest c)                                              -- 49-71
  | .createContextWithHelpers out => api s [!out] (L.rest c)                                   -- 73-93
  | .debugMessageCallback ctx cb => api s [decide (ctx = 0), !cb] (withCtx L ctx (L.rest c))   -- 95-121
  | .getDebugMessageLog ctx count bufSize numFetched =>                                        -- 123-160
    api s [decide (ctx = 0), decide (count = 0), decide (bufSize = 0), !numFetched] (withCtx L ctx (L.rest c))
  | .debugMessageControl ctx source type severity =>                                           -- 162-203
    api s [decide (ctx = 0),
      !(decide (source = SOURCE_ALL) || decide (source = SOURCE_KERNEL) || decide (source = SOURCE_ALL)),
      !(decide (type = TYPE_ALL) || decide (type = TYPE_DEPRECATED) || decide (type = TYPE_ERROR) || decide (type = TYPE_OTHER)),
      !(decide (severity = SEVERITY_HIGH) || decide (severity = SEVERITY_MEDIUM) || decide (severity = SEVERITY_LOW) ||
        decide (severity = SEVERITY_NOTIFICATION) || decide (severity = SEVERITY_ALL))] (withCtx L ctx (L.rest c))
  | .getInfo ctx info bytes mem _ =>                                                           -- 205-240
    api s [decide (ctx = 0), decide (bytes ≠ 0) && !mem,
      !(decide (info &&& CONTEXT_FLAGS ≠ 0) || decide (info &&& MAX_DEBUG_MESSAGE_LENGTH ≠ 0) || decide (info &&& GP_CONSTANT ≠ 0) ||
        decide (info &&& GP_ATTEMPTS ≠ 0) || decide (info &&& DISPATCH_INTERSECTION_TYPE ≠ 0)),
      decide (info &&& CONTEXT_FLAGS ≠ 0) && (mem && decide (bytes ≠ 4))] (withCtx L ctx (L.rest c))
  | .bindState ctx info bytes mem =>                                                           -- 242-284
    api s [decide (ctx = 0), decide (bytes = 0), !mem,
      !(decide (info &&& GP_CONSTANT ≠ 0) || decide (info &&& GP_ATTEMPTS ≠ 0) || decide (info &&& WINDING_ORDER ≠ 0)),
      (decide (info &&& GP_CONSTANT ≠ 0) && decide (bytes ≠ 8)) || (decide (info &&& GP_ATTEMPTS ≠ 0) && decide (bytes ≠ 4)) ||
        (decide (info &&& WINDING_ORDER ≠ 0) && decide (bytes ≠ 4))] (withCtx L ctx (L.rest c))
  | .createUserEvent out ctx => api s [!out, decide (ctx = 0)] (withCtx L ctx (L.rest c))      -- 286-313
  | .setUserEventStatus ev _ => api s [decide (ev = 0)] (withEv L ev (L.rest c))               -- 315-340
  | .getEventInfo ev info bytes mem _ => api s (eventInfoChecks ev info bytes mem) (withEv L ev (L.rest c)) -- 342-373
  | .waitForEvents count list =>                                                               -- 375-409
    api s [!list && decide (count > 0), list && decide (count = 0)] (L.rest c)
  | .setEventCallback ev cb => apiLate s (decide (ev = 0)) [!cb] (withEv L ev (L.rest c))      -- 411-442
  | .enqueueDispatch ctx flags src cut w =>                                                    -- 444-537
    api s ([decide (ctx = 0)] ++ flagChecks flags ++ meshChecks src ++ meshChecks cut ++ waitChecks w) (submit w (withCtx L ctx (L.rest c)))
  | .enqueuePlanarSection ctx flags src normal offset w =>                                     -- 590-671
    api s ([decide (ctx = 0)] ++ flagChecks flags ++ meshChecks src ++
      [normal.isNone, decide (normal = some (0, 0, 0)), decide (offset ≤ 0) && decide (offset ≥ 1000)] ++ waitChecks w)
      (submit w (withCtx L ctx (L.rest c)))
  | .enqueueGetComponents ctx type _ comps num w =>                                            -- 673-717
    api s ([decide (ctx = 0), decide (type = 0), !num && !comps] ++ waitChecks w) (submit w (withCtx L ctx (L.rest c)))
  | .enqueueGetData ctx comp flags bytes mem _ w =>                                            -- 742-789
    apiLate s (decide (ctx = 0)) ([decide (comp = 0), decide (flags = 0), decide (bytes ≠ 0) && !mem] ++ waitChecks w)
      (submit w (withCtx L ctx (L.rest c)))
  | .releaseEvents count list =>                                                               -- 816-845
    api s [decide (count > 0) && !list, decide (count = 0) && list] (L.rest c)
  | .releaseComponents ctx count list =>                                                       -- 847-879
    api s [decide (ctx = 0), decide (count > 0) && !list, decide (count = 0) && list] (withCtx L ctx (L.rest c))
  | .releaseContext ctx => api s [decide (ctx = 0)] (withCtx L ctx (L.rest c))                 -- 881-906
  | _ => .ub

/-- Wait arguments that the blocking variants pass: `0, nullptr, &event`. -/
def ownEvent : Wait := ⟨0, false, true⟩

/-- All entry points. The blocking variants (mcut.cpp:539-588, 719-740, 791-814) enqueue with their own event and block only if that succeeded
(then and only then their event is not null). -/
def exec (L : Lib σ) (s : σ) (c : Call) : Reply σ :=
  let blocking (e : Call) : Reply σ :=
    match exec1 L s e with
    | .ret s' r => if r = NO_ERROR then L.block c s' else .ret s' r
    | .ub => .ub
  match c with
  | .dispatch ctx flags src cut => blocking (.enqueueDispatch ctx flags src cut ownEvent)
  | .getComponents ctx type n comps num => blocking (.enqueueGetComponents ctx type n comps num ownEvent)
  | .getData ctx comp flags bytes mem num => blocking (.enqueueGetData ctx comp flags bytes mem num ownEvent)
  | c => exec1 L s c

/-! ## mcGetEventInfo -/

/-- What an event stores — include/mcut/internal/frontend.h (`event_t`). -/
structure EventData where
  runtimeStatus : BitVec 32
  commandStatus : BitVec 32
  commandType : BitVec 32
  context : BitVec 64
  submit : BitVec 64
  start : BitVec 64
  finish : BitVec 64

/-- What the call does to client memory. `overread k`: `memcpy` also reads `k` bytes behind the local variable. -/
inductive InfoReply
  | error (r : Int)
  | size (n : Nat)
  | data (bytes : List Mcut.Ctx.Byte)
  | overread (k : Nat)
  | nullStore
deriving DecidableEq

/-- One case of the switch — for example frontend.cpp:523-534: `width` is the size of the local variable holding `value`. -/
def infoCase (width value bytes : Nat) (mem numBytes : Bool) : InfoReply :=
  if mem = false then (if numBytes then .size width else .nullStore)
  else if bytes < width then .error INVALID_VALUE
  else if bytes > width then .overread (bytes - width)
  else .data (Mcut.Ctx.leBytes width value)

/-- `get_event_info_impl` — frontend.cpp:509-592. Timestamps that are still zero violate an assertion (debug builds only). -/
def getEventInfoImpl (e : Option EventData) (info : Word) (bytes : Nat) (mem numBytes : Bool) : InfoReply :=
  match e with
  | none => .error INVALID_VALUE
  | some e =>
    if info = EV_RUNTIME then infoCase 4 e.runtimeStatus.toNat bytes mem numBytes
    else if info = EV_SUBMIT then infoCase 8 e.submit.toNat bytes mem numBytes
    else if info = EV_START then infoCase 8 e.start.toNat bytes mem numBytes
    else if info = EV_END then infoCase 8 e.finish.toNat bytes mem numBytes
    else if info = EV_STATUS then infoCase 4 e.commandStatus.toNat bytes mem numBytes
    else if info = EV_TYPE then infoCase 4 e.commandType.toNat bytes mem numBytes
    else if info = EV_CONTEXT then infoCase 8 e.context.toNat bytes mem numBytes
    else .error INVALID_VALUE

/-- `mcGetEventInfo` — mcut.cpp:342-373. `e` is what the handle refers to. -/
def mcGetEventInfo (ev : Nat) (e : Option EventData) (info : Word) (bytes : Nat) (mem numBytes : Bool) : InfoReply :=
  if (eventInfoChecks ev info bytes mem).any id then .error INVALID_VALUE else getEventInfoImpl e info bytes mem numBytes

end Mcut.Params
