import Verif.Lemmas.C03

/-! Specification notions used in the statements of `Props/C04.lean`. -/
namespace Mcut.Ctx

/-- Spec: the message passes the context's filters. -/
def Enabled (c : Ctx) (m : Msg) : Prop :=
  c.flags.getLsbD 0 = true ∧
  (∃ i, m.source.getLsbD i = true ∧ c.fSource.getLsbD i = true) ∧
  (∃ i, m.type.getLsbD i = true ∧ c.fType.getLsbD i = true) ∧
  (∃ i, m.severity.getLsbD i = true ∧ c.fSeverity.getLsbD i = true)

/-- Spec: the messages the library itself produces when an action is performed (in order): an emitted message, the notice
of `mcGetDebugMessageLog` with a null buffer, and the notices of `mcBindState`. -/
def notices (o : Op) : List Msg :=
  match o with
  | .emit m => [m]
  | .getLog count bufSize messageLog numFetched =>
    if count ≠ 0 ∧ bufSize ≠ 0 ∧ numFetched = true ∧ messageLog = false then
      [⟨SOURCE_API, TYPE_OTHER, SEVERITY_NOTIFICATION, ascii "output messageLog is NULL. Return."⟩] else []
  | .bind info bytes (some _) =>
    if info = GP_CONSTANT ∧ bytes = 8 then
      [⟨SOURCE_API, TYPE_OTHER, SEVERITY_NOTIFICATION, ascii "general coords enforcement constant set to "⟩]
    else if info = GP_ATTEMPTS ∧ bytes = 4 then
      [⟨SOURCE_API, TYPE_OTHER, SEVERITY_NOTIFICATION, ascii "general position enforcement attempts set to "⟩]
    else if info = WINDING_ORDER ∧ bytes = 4 then
      [⟨SOURCE_API, TYPE_OTHER, SEVERITY_NOTIFICATION, ascii "winding-order set to "⟩]
    else []
  | _ => []

open Classical in
/-- Spec: the messages among `ms` that a context in state `c` lets through. -/
noncomputable def passing (c : Ctx) (ms : List Msg) : List Msg := ms.filter (fun m => decide (Enabled c m))

/-- Spec: everything that must have reached the log / the callbacks over a history, computed action by action from the state in which the
action started. -/
noncomputable def deliveredToLog : Ctx → List Op → List Msg
  | _, [] => []
  | c, o :: ops => (if c.callback = none then passing c (notices o) else []) ++ deliveredToLog (step c o).1 ops

/-- Spec, see `deliveredToLog`. -/
noncomputable def deliveredToCallback : Ctx → List Op → List (Nat × Msg)
  | _, [] => []
  | c, o :: ops =>
    (match c.callback with | some cb => (passing c (notices o)).map (fun m => (cb, m)) | none => []) ++
      deliveredToCallback (step c o).1 ops

end Mcut.Ctx
