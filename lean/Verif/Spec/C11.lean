import Verif.Model.Api

/-! Specification notions used in the statements of `Props/C11.lean`. -/
namespace Mcut.Api

/-- Spec: what mcGetEventInfo reports: execution status and runtime result. -/
def info (s : St) (h : Nat) : CStat × Int := ((s.ev h).stat, (s.ev h).rt)

end Mcut.Api
