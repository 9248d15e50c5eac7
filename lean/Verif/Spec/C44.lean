import Verif.Model.Params

/-!
# Specification for C44 and C57: which arguments the library refuses

Written from the error lists of include/mcut/mcut.h (540-1380) and the English property: null handles and handles of nothing, null required
pointers, counts out of range, contradictory arguments.
-/
namespace Mcut.Params

/-- Bit `i` of a flag word. -/
def has (w : Word) (i : Nat) : Prop := w.getLsbD i = true

/-- No such context. -/
def NoCtx {σ} (L : Lib σ) (s : σ) (ctx : Nat) : Prop := ctx = 0 ∨ L.hasCtx s ctx = false

/-- No such event. -/
def NoEv {σ} (L : Lib σ) (s : σ) (ev : Nat) : Prop := ev = 0 ∨ L.hasEv s ev = false

/-- A list with a count but no array, or an array but no count. -/
def BadList (count : Nat) (list : Bool) : Prop := (0 < count ∧ list = false) ∨ (count = 0 ∧ list = true)

/-- A bad wait list, or neither a wait list nor a place for the event. -/
def BadWait (w : Wait) : Prop := BadList w.count w.list ∨ (w.count = 0 ∧ w.list = false ∧ w.event = false)

/-- Dispatch flags: nothing set; through cuts only (bit 2) and partial cuts (bit 7) at once; no vertex type (bits 0, 1). -/
def BadFlags (f : Word) : Prop := f = 0 ∨ (has f 2 ∧ has f 7) ∨ (¬ has f 0 ∧ ¬ has f 1)

/-- A mesh without a required array, with fewer than three vertices or without faces. -/
def BadMesh (m : MeshArgs) : Prop := m.vertices = false ∨ m.numVertices < 3 ∨ m.indices = false ∨ m.numFaces < 1

/-- Width of the value that `info` (exactly one bit) asks an event for, if the entry point checks it: 4 bytes for the runtime status (bit 2) and the
command status (bit 6), 8 bytes for the time stamps (bits 3, 4, 5). -/
def checkedWidth (info : Word) : Option Nat :=
  if info = 4#32 ∨ info = 64#32 then some 4 else if info = 8#32 ∨ info = 16#32 ∨ info = 32#32 then some 8 else none

/-- Arguments that are refused. -/
def Bad {σ} (L : Lib σ) (s : σ) : Call → Prop
  | .createContext out => out = false
  | .createContextWithHelpers out => out = false
  | .debugMessageCallback ctx cb => NoCtx L s ctx ∨ cb = false
  | .getDebugMessageLog ctx count bufSize numFetched => NoCtx L s ctx ∨ count = 0 ∨ bufSize = 0 ∨ numFetched = false
  | .debugMessageControl ctx source type severity => NoCtx L s ctx ∨
      source ∉ [0xFFFFFFFF#32, 2#32] ∨ type ∉ [0xFFFFFFFF#32, 1#32, 2#32, 4#32] ∨ severity ∉ [0xFFFFFFFF#32, 1#32, 2#32, 4#32, 8#32]
  | .getInfo ctx info bytes mem _ => NoCtx L s ctx ∨ (0 < bytes ∧ mem = false) ∨
      (¬ has info 0 ∧ ¬ has info 9 ∧ ¬ has info 10 ∧ ¬ has info 11 ∧ ¬ has info 13) ∨ (has info 0 ∧ mem = true ∧ bytes ≠ 4)
  | .bindState ctx info bytes mem => NoCtx L s ctx ∨ bytes = 0 ∨ mem = false ∨ (¬ has info 10 ∧ ¬ has info 11 ∧ ¬ has info 12) ∨
      (has info 10 ∧ bytes ≠ 8) ∨ (has info 11 ∧ bytes ≠ 4) ∨ (has info 12 ∧ bytes ≠ 4)
  | .createUserEvent out ctx => out = false ∨ NoCtx L s ctx
  | .setUserEventStatus ev _ => NoEv L s ev
  | .getEventInfo ev info bytes mem _ => NoEv L s ev ∨ (0 < bytes ∧ mem = false) ∨ (mem = true ∧ ∃ k, checkedWidth info = some k ∧ bytes ≠ k)
  | .waitForEvents count list => BadList count list
  | .setEventCallback ev cb => NoEv L s ev ∨ cb = false
  | .enqueueDispatch ctx flags src cut w => NoCtx L s ctx ∨ BadFlags flags ∨ BadMesh src ∨ BadMesh cut ∨ BadWait w
  | .dispatch ctx flags src cut => NoCtx L s ctx ∨ BadFlags flags ∨ BadMesh src ∨ BadMesh cut
  | .enqueuePlanarSection ctx flags src normal _ w => NoCtx L s ctx ∨ BadFlags flags ∨ BadMesh src ∨
      normal = none ∨ normal = some (0, 0, 0) ∨ BadWait w
  | .enqueueGetComponents ctx type _ comps num w => NoCtx L s ctx ∨ type = 0 ∨ (comps = false ∧ num = false) ∨ BadWait w
  | .getComponents ctx type _ comps num => NoCtx L s ctx ∨ type = 0 ∨ (comps = false ∧ num = false)
  | .enqueueGetData ctx comp flags bytes mem _ w => NoCtx L s ctx ∨ comp = 0 ∨ flags = 0 ∨ (0 < bytes ∧ mem = false) ∨ BadWait w
  | .getData ctx comp flags bytes mem _ => NoCtx L s ctx ∨ comp = 0 ∨ flags = 0 ∨ (0 < bytes ∧ mem = false)
  | .releaseEvents count list => BadList count list
  | .releaseComponents ctx count list => NoCtx L s ctx ∨ BadList count list
  | .releaseContext ctx => NoCtx L s ctx

/-- The wait arguments of a non-blocking command call. -/
def waitOf : Call → Option Wait
  | .enqueueDispatch _ _ _ _ w => some w
  | .enqueuePlanarSection _ _ _ _ _ w => some w
  | .enqueueGetComponents _ _ _ _ _ w => some w
  | .enqueueGetData _ _ _ _ _ _ w => some w
  | _ => none

/-- The non-blocking call that a blocking one makes first. -/
def enqueued : Call → Option Call
  | .dispatch ctx flags src cut => some (.enqueueDispatch ctx flags src cut ⟨0, false, true⟩)
  | .getComponents ctx type n comps num => some (.enqueueGetComponents ctx type n comps num ⟨0, false, true⟩)
  | .getData ctx comp flags bytes mem num => some (.enqueueGetData ctx comp flags bytes mem num ⟨0, false, true⟩)
  | _ => none

/-- What an event reports for each `info`: width in bytes and value; `none` for anything that is not one of the seven values. -/
def valueOf (e : EventData) (info : Word) : Option (Nat × Nat) :=
  match info.toNat with
  | 4 => some (4, e.runtimeStatus.toNat)
  | 8 => some (8, e.submit.toNat)
  | 16 => some (8, e.start.toNat)
  | 32 => some (8, e.finish.toNat)
  | 64 => some (4, e.commandStatus.toNat)
  | 128 => some (8, e.context.toNat)
  | 256 => some (4, e.commandType.toNat)
  | _ => none

/-- `bytes` little-endian holds `value`. -/
def Holds (bytes : List (BitVec 8)) (width value : Nat) : Prop :=
  bytes.length = width ∧ ∀ i < width, bytes[i]? = some (BitVec.ofNat 8 (value / 256 ^ i))

end Mcut.Params
