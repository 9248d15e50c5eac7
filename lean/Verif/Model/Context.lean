import Verif.Model.Util

/-!
# Per-context debug and state functions

Models `mcDebugMessageControl`, `mcDebugMessageCallback`, `mcGetDebugMessageLog`, `mcGetInfo`,
`mcBindState` (source/mcut.cpp:85-284), their implementations (source/frontend.cpp:93-412) and
`context_t::dbg_cb` (include/mcut/internal/frontend.h:877-915).

Simplifications: a valid context handle is given (null and unknown handles are the subject of `Model/Api`);
the text of the messages emitted by `bind_state_impl` omits the printed number.
Memory is a list of bytes; a `double` is its 64-bit pattern.
-/
namespace Mcut.Ctx

/-- `McFlags` and the debug enums are 32-bit words (include/mcut/mcut.h:170, 324-358). -/
abbrev Word := BitVec 32

/-- One byte of client memory. -/
abbrev Byte := BitVec 8

/-- `McResult` — include/mcut/mcut.h:202-208. -/
inductive Result
  | noError | invalidOperation | invalidValue | outOfMemory | maxEnum
  deriving DecidableEq, Repr

/-! Enum values — include/mcut/mcut.h:324-358, 367-371, 475-478, 500-515. -/

/-- include/mcut/mcut.h:325 -/ def SOURCE_API : Word := 1#32 <<< 0
/-- include/mcut/mcut.h:326 -/ def SOURCE_KERNEL : Word := 1#32 <<< 1
/-- include/mcut/mcut.h:327 -/ def SOURCE_FRONTEND : Word := 1#32 <<< 2
/-- include/mcut/mcut.h:328 -/ def SOURCE_IGNORE : Word := 1#32 <<< 3
/-- include/mcut/mcut.h:329 -/ def SOURCE_ALL : Word := 0xFFFFFFFF#32
/-- include/mcut/mcut.h:339 -/ def TYPE_ERROR : Word := 1#32 <<< 0
/-- include/mcut/mcut.h:340 -/ def TYPE_DEPRECATED : Word := 1#32 <<< 1
/-- include/mcut/mcut.h:341 -/ def TYPE_OTHER : Word := 1#32 <<< 2
/-- include/mcut/mcut.h:343 -/ def TYPE_ALL : Word := 0xFFFFFFFF#32
/-- include/mcut/mcut.h:353 -/ def SEVERITY_HIGH : Word := 1#32 <<< 0
/-- include/mcut/mcut.h:354 -/ def SEVERITY_MEDIUM : Word := 1#32 <<< 1
/-- include/mcut/mcut.h:355 -/ def SEVERITY_LOW : Word := 1#32 <<< 2
/-- include/mcut/mcut.h:356 -/ def SEVERITY_NOTIFICATION : Word := 1#32 <<< 3
/-- include/mcut/mcut.h:357 -/ def SEVERITY_IGNORE : Word := 1#32 <<< 3
/-- include/mcut/mcut.h:358 -/ def SEVERITY_ALL : Word := 0xFFFFFFFF#32
/-- include/mcut/mcut.h:368 -/ def MC_DEBUG : Word := 1#32 <<< 0
/-- include/mcut/mcut.h:476 -/ def WINDING_AS_GIVEN : Word := 1#32 <<< 0
/-- include/mcut/mcut.h:477 -/ def WINDING_REVERSED : Word := 1#32 <<< 1
/-- include/mcut/mcut.h:501 -/ def CONTEXT_FLAGS : Word := 1#32 <<< 0
/-- include/mcut/mcut.h:510 -/ def MAX_DEBUG_MESSAGE_LENGTH : Word := 1#32 <<< 9
/-- include/mcut/mcut.h:511 -/ def GP_CONSTANT : Word := 1#32 <<< 10
/-- include/mcut/mcut.h:512 -/ def GP_ATTEMPTS : Word := 1#32 <<< 11
/-- include/mcut/mcut.h:513 -/ def WINDING_ORDER : Word := 1#32 <<< 12
/-- include/mcut/mcut.h:514 -/ def DISPATCH_INTERSECTION_TYPE : Word := 1#32 <<< 13

/-- `context_t::debug_log_msg_t` — include/mcut/internal/frontend.h:867-872. -/
structure Msg where
  source : Word
  type : Word
  severity : Word
  str : List Byte
  deriving DecidableEq, Repr

/-- The part of `context_t` these functions touch — include/mcut/internal/frontend.h:514-526, 838-874.
`callback` is the identity of the registered (function pointer, user pointer) pair; `calls` is the trace of
callback invocations (an observable effect, not a field). -/
structure Ctx where
  flags : Word
  fSource : Word
  fType : Word
  fSeverity : Word
  callback : Option Nat
  calls : List (Nat × Msg)
  logs : List Msg
  gpConstant : BitVec 64
  gpAttempts : Word
  winding : Word
  intersectionType : Word
  deriving DecidableEq, Repr

/-- `context_t::context_t` — include/mcut/internal/frontend.h:558-580 (settings only; `1e-4` is the
bit pattern `0x3F1A36E2EB1C432D`). -/
def Ctx.create (flags : Word) : Ctx where
  flags := flags
  fSource := 0
  fType := 0
  fSeverity := 0
  callback := none
  calls := []
  logs := []
  gpConstant := 0x3F1A36E2EB1C432D#64
  gpAttempts := 1#32 <<< 2
  winding := WINDING_AS_GIVEN
  intersectionType := 0xFFFFFFFF#32

/-- `context_t::dbg_cb` — include/mcut/internal/frontend.h:877-915. The mutex is not modelled (see DESIGN). -/
def dbgCb (c : Ctx) (m : Msg) : Ctx :=
  if c.flags &&& MC_DEBUG ≠ 0 then
    let canLog := (m.source &&& c.fSource ≠ 0) && (m.type &&& c.fType ≠ 0) && (m.severity &&& c.fSeverity ≠ 0)
    if canLog then
      match c.callback with
      | some cb => { c with calls := c.calls ++ [(cb, m)] }
      | none => { c with logs := c.logs ++ [m] }
    else c
  else c

/-- `mcDebugMessageCallback` with non-null arguments / `context_t::set_debug_callback_data` —
source/mcut.cpp:93-121, include/mcut/internal/frontend.h:860-865. `cb = none` is a null function pointer, which the API
wrapper rejects. -/
def mcDebugMessageCallback (c : Ctx) (cb : Option Nat) : Ctx × Result :=
  match cb with
  | none => (c, .invalidValue)
  | some f => ({ c with callback := some f }, .noError)

/-! ## mcDebugMessageControl -/

/-- The bit pattern of `(float)w` shifted right by 23 (biased exponent) for `w` zero or a power of two, which is the
only use; `⌊log2 w⌋` is the exponent. (IEEE-754 binary32: bias 127, zero has exponent field 0.) -/
def floatExponentField (w : Word) : Nat := if w = 0 then 0 else 127 + Nat.log2 w.toNat

/-- `trailing_zeroes` — source/frontend.cpp:176-202. -/
def trailingZeroes (v : Word) : Int := (floatExponentField (v &&& -v) : Int) - 0x7f

/-- `set_bit` — source/frontend.cpp:205-209. -/
def setBit (v : Word) (pos : Nat) : Word := v ||| (1#32 <<< pos)

/-- `clear_bit` — source/frontend.cpp:211-215 (the mask is 64 bit wide on LP64 and truncated by `&=`). -/
def clearBit (v : Word) (pos : Nat) : Word := v &&& BitVec.truncate 32 (~~~(1#64 <<< pos))

/-- One `for (auto i : { ... })` loop of `debug_message_control_impl` — source/frontend.cpp:236-247 (and 253-265,
271-282): `flags` is the brace list, `all` the wildcard constant of the loop. -/
def controlLoop (field param all : Word) (enabled : Bool) (flags : List Word) : Word :=
  flags.foldl (fun f i =>
    if param &&& i ≠ 0 then
      let n := (trailingZeroes (all &&& i)).toNat
      if enabled then setBit f n else clearBit f n
    else f) field

/-- `debug_message_control_impl` — source/frontend.cpp:217-283. -/
def debugMessageControlImpl (c : Ctx) (source type severity : Word) (enabled : Bool) : Ctx :=
  { c with
    fSource := controlLoop c.fSource source SOURCE_ALL enabled [SOURCE_API, SOURCE_KERNEL],
    fType := controlLoop c.fType type TYPE_ALL enabled [TYPE_DEPRECATED, TYPE_ERROR, TYPE_OTHER],
    fSeverity := controlLoop c.fSeverity severity SEVERITY_ALL enabled
      [SEVERITY_HIGH, SEVERITY_LOW, SEVERITY_MEDIUM, SEVERITY_NOTIFICATION] }

/-- `mcDebugMessageControl` — source/mcut.cpp:161-202. -/
def mcDebugMessageControl (c : Ctx) (source type severity : Word) (enabled : Bool) : Ctx × Result :=
  if ¬ (source = SOURCE_ALL ∨ source = SOURCE_KERNEL ∨ source = SOURCE_ALL) then (c, .invalidValue)
  else if ¬ (type = TYPE_ALL ∨ type = TYPE_DEPRECATED ∨ type = TYPE_ERROR ∨ type = TYPE_OTHER) then
    (c, .invalidValue)
  else if ¬ (severity = SEVERITY_HIGH ∨ severity = SEVERITY_MEDIUM ∨ severity = SEVERITY_LOW ∨
      severity = SEVERITY_NOTIFICATION ∨ severity = SEVERITY_ALL) then (c, .invalidValue)
  else (debugMessageControlImpl c source type severity enabled, .noError)

/-! ## mcGetDebugMessageLog -/

/-- ASCII bytes of a message literal. -/
def ascii (s : String) : List Byte := s.toList.map (fun ch => BitVec.ofNat 8 ch.toNat)

/-- What `mcGetDebugMessageLog` writes into client memory: `numFetched`, the character buffer (from offset 0) and the
parallel arrays (each written only if the client passed a non-null pointer; the model shows what would be written). -/
structure LogReply where
  result : Result
  numFetched : Option Nat
  buffer : List Byte
  entries : List (Word × Word × Word × Nat)
  deriving DecidableEq, Repr

/-- The loop of `get_debug_message_log_impl` — source/frontend.cpp:144-172. `fuel = N - numFetched`;
`offset` = messageLogOffset; returns (numFetched, written characters, written array entries). -/
def fetchLoop (bufSize : Nat) : (fuel : Nat) → (rest : List Msg) → (offset : Nat) →
    (buffer : List Byte) → (entries : List (Word × Word × Word × Nat)) →
    List Byte × List (Word × Word × Word × Nat)
  | 0, _, _, buffer, entries => (buffer, entries)
  | _ + 1, [], _, buffer, entries => (buffer, entries)
  | fuel + 1, m :: rest, offset, buffer, entries =>
    if offset + m.str.length > bufSize then (buffer, entries)
    else fetchLoop bufSize fuel rest (offset + m.str.length) (buffer ++ m.str)
      (entries ++ [(m.source, m.type, m.severity, m.str.length)])

/-- `get_debug_message_log_impl` — source/frontend.cpp:118-173. `messageLog` says whether the pointer is non-null.
`(uint32_t)m_debug_logs.size()` truncates. -/
def getDebugMessageLogImpl (c : Ctx) (count : Nat) (bufSize : Nat) (messageLog : Bool) : Ctx × LogReply :=
  if messageLog = false then
    (dbgCb c ⟨SOURCE_API, TYPE_OTHER, SEVERITY_NOTIFICATION, ascii "output messageLog is NULL. Return."⟩,
      ⟨.noError, some 0, [], []⟩)
  else
    let n := min count (c.logs.length % 2 ^ 32)
    let r := fetchLoop bufSize n c.logs 0 [] []
    (c, ⟨.noError, some r.2.length, r.1, r.2⟩)

/-- `mcGetDebugMessageLog` — source/mcut.cpp:123-159. -/
def mcGetDebugMessageLog (c : Ctx) (count bufSize : Nat) (messageLog numFetched : Bool) : Ctx × LogReply :=
  if count = 0 then (c, ⟨.invalidValue, none, [], []⟩)
  else if bufSize = 0 then (c, ⟨.invalidValue, none, [], []⟩)
  else if numFetched = false then (c, ⟨.invalidValue, none, [], []⟩)
  else getDebugMessageLogImpl c count bufSize messageLog

/-! ## mcGetInfo / mcBindState -/

/-- Little-endian bytes of a `k`-byte scalar (`memcpy` from a scalar). -/
def leBytes : Nat → Nat → List Byte
  | 0, _ => []
  | k + 1, n => BitVec.ofNat 8 n :: leBytes k (n / 256)

/-- Scalar held by a little-endian byte string (`memcpy` into a scalar). -/
def leVal : List Byte → Nat
  | [] => 0
  | b :: bs => b.toNat + 256 * leVal bs

/-- What `mcGetInfo` does to client memory. `ub` marks a write through a null pointer. -/
structure InfoReply where
  result : Result
  numBytes : Option Nat
  data : List Byte
  ub : Bool
  deriving DecidableEq, Repr

/-- `*pNumBytes = size` — the size-query branch of every case of `get_info_impl`. -/
def sizeReply (pNumBytes : Bool) (size : Nat) : InfoReply :=
  if pNumBytes then ⟨.noError, some size, [], false⟩ else ⟨.noError, none, [], true⟩

/-- An exception `std::invalid_argument` turned into MC_INVALID_VALUE. -/
def invalid : InfoReply := ⟨.invalidValue, none, [], false⟩

/-- `get_info_impl` — source/frontend.cpp:286-360. For MC_CONTEXT_FLAGS `memcpy` copies `bytes` bytes of a 4-byte
variable; the model shows the first 4 of them only and marks `bytes > 4` as undefined behaviour. -/
def getInfoImpl (c : Ctx) (info : Word) (bytes : Nat) (pMem pNumBytes : Bool) : InfoReply :=
  if info = CONTEXT_FLAGS then
    if pMem = false then sizeReply pNumBytes 4
    else if bytes < 4 then invalid
    else ⟨.noError, none, leBytes 4 c.flags.toNat, decide (bytes > 4)⟩
  else if info = MAX_DEBUG_MESSAGE_LENGTH then
    if pMem = false then sizeReply pNumBytes 8
    else ⟨.noError, none, leBytes 8 (c.logs.foldl (fun m l => max m l.str.length) 0), false⟩
  else if info = GP_CONSTANT then
    if pMem = false then sizeReply pNumBytes 8
    else ⟨.noError, none, leBytes 8 c.gpConstant.toNat, false⟩
  else if info = GP_ATTEMPTS then
    if pMem = false then sizeReply pNumBytes 4
    else ⟨.noError, none, leBytes 4 c.gpAttempts.toNat, false⟩
  else if info = WINDING_ORDER then
    if pMem = false then sizeReply pNumBytes 4
    else ⟨.noError, none, leBytes 4 c.winding.toNat, false⟩
  else if info = DISPATCH_INTERSECTION_TYPE then
    if pMem = false then sizeReply pNumBytes 4
    else ⟨.noError, none, leBytes 4 c.intersectionType.toNat, false⟩
  else invalid

/-- `mcGetInfo` — source/mcut.cpp:204-241. -/
def mcGetInfo (c : Ctx) (info : Word) (bytes : Nat) (pMem pNumBytes : Bool) : InfoReply :=
  if bytes ≠ 0 ∧ pMem = false then invalid
  else if ¬ (info &&& CONTEXT_FLAGS ≠ 0 ∨ info &&& MAX_DEBUG_MESSAGE_LENGTH ≠ 0 ∨ info &&& GP_CONSTANT ≠ 0 ∨
      info &&& GP_ATTEMPTS ≠ 0 ∨ info &&& DISPATCH_INTERSECTION_TYPE ≠ 0) then invalid
  else if info &&& CONTEXT_FLAGS ≠ 0 ∧ (pMem = true ∧ bytes ≠ 4) then invalid
  else getInfoImpl c info bytes pMem pNumBytes

/-- IEEE-754 binary64: the value is a NaN (all-ones exponent, non-zero fraction). -/
def isNaN (b : BitVec 64) : Bool := decide (b.toNat % 2 ^ 63 > 0x7FF0000000000000)

/-- IEEE-754 binary64: `value <= 0` (false for NaN; true for zeros and for negative values). -/
def leZero (b : BitVec 64) : Bool := !isNaN b && (decide (b.toNat % 2 ^ 63 = 0) || decide (b.toNat ≥ 2 ^ 63))

/-- `bind_state_impl` — source/frontend.cpp:362-409. `mem` are the `bytes` bytes read by `memcpy`. -/
def bindStateImpl (c : Ctx) (info : Word) (mem : List Byte) : Ctx × Result :=
  if info = GP_CONSTANT then
    let value := BitVec.ofNat 64 (leVal mem)
    let c := dbgCb c ⟨SOURCE_API, TYPE_OTHER, SEVERITY_NOTIFICATION,
      ascii "general coords enforcement constant set to "⟩
    if leZero value then (c, .invalidValue) else ({ c with gpConstant := value }, .noError)
  else if info = GP_ATTEMPTS then
    let value := BitVec.ofNat 32 (leVal mem)
    let c := dbgCb c ⟨SOURCE_API, TYPE_OTHER, SEVERITY_NOTIFICATION,
      ascii "general position enforcement attempts set to "⟩
    if value.toNat < 1 then (c, .invalidValue) else ({ c with gpAttempts := value }, .noError)
  else if info = WINDING_ORDER then
    let value := BitVec.ofNat 32 (leVal mem)
    let c := dbgCb c ⟨SOURCE_API, TYPE_OTHER, SEVERITY_NOTIFICATION, ascii "winding-order set to "⟩
    if value ≠ WINDING_AS_GIVEN ∧ value ≠ WINDING_REVERSED then (c, .invalidValue)
    else ({ c with winding := value }, .noError)
  else (c, .invalidValue)

/-- `mcBindState` — source/mcut.cpp:243-284. `pMem = none` is a null pointer; `some mem` a region whose first `bytes`
bytes are `mem` (the client's `bytes` is `mem.length`). -/
def mcBindState (c : Ctx) (info : Word) (bytes : Nat) (pMem : Option (List Byte)) : Ctx × Result :=
  if bytes = 0 then (c, .invalidValue)
  else match pMem with
    | none => (c, .invalidValue)
    | some mem =>
      if ¬ (info &&& GP_CONSTANT ≠ 0 ∨ info &&& GP_ATTEMPTS ≠ 0 ∨ info &&& WINDING_ORDER ≠ 0) then (c, .invalidValue)
      else if (info &&& GP_CONSTANT ≠ 0 ∧ bytes ≠ 8) ∨ (info &&& GP_ATTEMPTS ≠ 0 ∧ bytes ≠ 4) ∨
          (info &&& WINDING_ORDER ≠ 0 ∧ bytes ≠ 4) then (c, .invalidValue)
      else bindStateImpl c info (mem.take bytes)

/-- One API-visible action on a context: the calls above, a message emitted by the library, or a dispatch storing
its intersection type (`set_most_recent_dispatch_intersection_type`, source/preproc.cpp). -/
inductive Op
  | control (source type severity : Word) (enabled : Bool)
  | setCallback (cb : Option Nat)
  | emit (m : Msg)
  | getLog (count bufSize : Nat) (messageLog numFetched : Bool)
  | getInfo (info : Word) (bytes : Nat) (pMem pNumBytes : Bool)
  | bind (info : Word) (bytes : Nat) (pMem : Option (List Byte))
  | storeIntersectionType (t : Word)
  deriving DecidableEq, Repr

/-- State change and result code of an action (calls that cannot fail report `noError`). -/
def step (c : Ctx) : Op → Ctx × Result
  | .control s t v e => mcDebugMessageControl c s t v e
  | .setCallback cb => mcDebugMessageCallback c cb
  | .emit m => (dbgCb c m, .noError)
  | .getLog n b l f => let r := mcGetDebugMessageLog c n b l f; (r.1, r.2.result)
  | .getInfo i b p q => (c, (mcGetInfo c i b p q).result)
  | .bind i b p => mcBindState c i b p
  | .storeIntersectionType t => ({ c with intersectionType := t }, .noError)

/-- A whole history of actions. -/
def run (c : Ctx) (ops : List Op) : Ctx := ops.foldl (fun c o => (step c o).1) c

end Mcut.Ctx
