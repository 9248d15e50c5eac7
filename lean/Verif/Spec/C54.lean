import Verif.Spec.C14

/-! Specification notions used in the statements of `Props/C54.lean`. -/
namespace Mcut.Api

/-- Spec: the rules. A wait list names no command of another context; mcSetUserEventStatus gets handles that
mcCreateUserEvent returned; the event of a command is released only when the command is finished with; a context is
released only when all its commands are finished with and no call is enqueueing to it. -/
def Disciplined (s : St) : Act → Prop
  | .enqueue _ c ws _ => ∀ w ∈ ws, ∀ c' t, Obs.submit c' t w ∈ s.log → c' = c
  | .signal _ h _ => ∃ i c, (i, Call.createUserEvent c h, NO_ERROR) ∈ s.rets
  | .release _ hs => ∀ h ∈ hs, ∀ c t, Obs.submit c t h ∈ s.log → DoneIn s.log h
  | .releaseCtx _ c => (∀ t h, Obs.submit c t h ∈ s.log → DoneIn s.log h) ∧ ∀ i h ws blk, s.cl i ≠ .submit c h ws blk
  | _ => True

/-- Spec: states reached by executions in which every call follows the rules. -/
inductive DReach : St → Prop
  | init : DReach init
  | step {s s' : St} {a : Act} (h : DReach s) (hd : Disciplined s a) (hs : step s a = some s') : DReach s'

end Mcut.Api
