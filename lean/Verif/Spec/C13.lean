import Verif.Model.Api

/-! Specification notions used in the statements of `Props/C13.lean`. -/
namespace Mcut.Api

/-- Spec: the number of calls of mcSetUserEventStatus on `h` that have returned MC_NO_ERROR. -/
def successes (s : St) (h : Nat) : Nat :=
  (s.rets.filter (fun x => match x with | (_, .setUserEventStatus h' _, r) => h' = h && r = 0 | _ => false)).length

/-- Spec: the statuses a user may set: MC_EVENT_COMMAND_EXEC_STATUS_COMPLETE (4) and the error codes MC_INVALID_OPERATION,
MC_INVALID_VALUE and MC_OUT_OF_MEMORY. -/
def Settable (code : Int) : Prop := code = 4 ∨ code = -2 ∨ code = -4 ∨ code = -8

/-- Spec: everything mcGetEventInfo and a wait can see of an event. -/
def visible (e : Ev) : CStat × Int × Bool := (e.stat, e.rt, e.ready)

end Mcut.Api
