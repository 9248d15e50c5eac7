import Verif.Model.Api

/-! Specification notions used in the statements of `Props/C08.lean`. -/
namespace Mcut.Api

/-- Spec: the order SUBMITTED < RUNNING < COMPLETE. -/
def CStat.rank : CStat → Nat
  | .submitted => 0
  | .running => 1
  | .complete => 2

/-- Spec: what mcGetEventInfo reports of an event: its command execution status and its runtime result
(frontend.cpp:521-591 reads these two atomics). -/
def report (s : St) (h : Nat) : CStat × Int := ((s.ev h).stat, (s.ev h).rt)

/-- Spec: the status went from the first report to the second the right way. -/
def Forward (a b : CStat × Int) : Prop := a.1.rank ≤ b.1.rank ∧ (a.1 = .complete → b = a)

end Mcut.Api
