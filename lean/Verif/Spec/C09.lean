import Verif.Model.Api

/-! Specification notions used in the statements of `Props/C09.lean`. -/
namespace Mcut.Api

/-- Spec: how often the callback of registration `k` has run. -/
def timesRun (s : St) (k : Nat) : Nat := (s.cbs.filter (fun o => match o with | .call _ k' _ => k' = k | .reg _ _ => false)).length

/-- Spec: registration `k` was made for event `h`. -/
def Registered (s : St) (h k : Nat) : Prop := CbObs.reg h k ∈ s.cbs

/-- Spec: registration `k` is the most recent one made for event `h`. -/
def Newest (s : St) (h k : Nat) : Prop := Registered s h k ∧ ∀ k', Registered s h k' → k' ≤ k

/-- Spec: the work of the command behind `h` has ended. -/
def Ended (s : St) (h : Nat) : Prop := ∃ c t r, Obs.stop c t h r ∈ s.log

/-- Spec: some client's mcSetUserEventStatus for `h` got as far as storing the accepted status. -/
def Accepted (s : St) (h : Nat) : Prop := (s.ev h).user = true ∧ (s.ev h).fin = true

end Mcut.Api
