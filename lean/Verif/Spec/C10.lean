import Verif.Model.Api

/-! Specification notions used in the statements of `Props/C10.lean`. -/
namespace Mcut.Api

/-- Spec: the work of command `h` has begun. -/
def Began (s : St) (h : Nat) : Prop := ∃ c t, Obs.start c t h ∈ s.log

/-- Spec: command `w` has ended with result `r`. -/
def EndedWith (s : St) (w : Nat) (r : Int) : Prop := ∃ c t, Obs.stop c t w r ∈ s.log

/-- Spec: command `w` was given up without being executed. -/
def Skipped (s : St) (w : Nat) : Prop := ∃ c t, Obs.skip c t w ∈ s.log

/-- Spec: `w` is a user event to which mcSetUserEventStatus has been applied, as mcGetEventInfo shows. -/
def Signalled (s : St) (w : Nat) : Prop := (s.ev w).user = true ∧ (s.ev w).stat ≠ .submitted

end Mcut.Api
