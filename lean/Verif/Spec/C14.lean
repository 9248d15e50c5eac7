import Verif.Model.Api

/-! Specification notions used in the statements of `Props/C14.lean`. -/
namespace Mcut.Api

/-- Spec: in the history `b` (newest first) command `h` is finished with: its work has ended, or it was given up. -/
def DoneIn (b : List Obs) (h : Nat) : Prop := (∃ c t r, Obs.stop c t h r ∈ b) ∨ ∃ c t, Obs.skip c t h ∈ b

/-- Spec: in the history `b` (newest first) command `h'` was enqueued to context `c`, queue `t'`, before command `h` to queue `t` of `c`. -/
def EnqueuedBefore (b : List Obs) (c t' h' t h : Nat) : Prop :=
  ∃ x y, b = x ++ .submit c t h :: y ∧ Obs.submit c t' h' ∈ y

end Mcut.Api
