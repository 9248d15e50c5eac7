import Verif.Spec.C10

/-! Specification notions used in the statements of `Props/C12.lean`. -/
namespace Mcut.Api

/-- Spec: a client's mcWaitForEvents on the list `ws` has returned `r`. -/
def Waited (s : St) (ws : List Nat) (r : Int) : Prop := ∃ i out, (i, Call.waitForEvents ws out, r) ∈ s.rets

/-- Spec: the event `w` finished without an error: its command ended with MC_NO_ERROR, or was given up, or it is a user
event whose status was set. -/
def FinishedOk (s : St) (w : Nat) : Prop := EndedWith s w 0 ∨ Skipped s w ∨ Signalled s w

/-- Spec: the event `w` finished with error `q`: its command ended so, or its status was set so. -/
def FinishedBad (s : St) (w : Nat) (q : Int) : Prop := q ≠ 0 ∧ (EndedWith s w q ∨ ((s.ev w).user = true ∧ (s.ev w).rt = q))

/-- Spec: the handle `w` is not in the table of events. -/
def Unknown (s : St) (w : Nat) : Prop := w ∉ s.evs

end Mcut.Api
