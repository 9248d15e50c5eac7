import Verif.Spec.C54

/-! Specification notions used in the statements of `Props/C55.lean`. -/
namespace Mcut.Api

/-- Spec: the label is a step of manager thread `t` of context `c`. Storing one more component in the middle of a command is not counted:
it brings the command no nearer to its end. -/
def ManagerAct (c t : Nat) (a : Act) : Prop := a = .pop c t ∨ a = .dep c t ∨ ∃ r, a = .run c t r

/-- Spec: the manager thread is not blocked. -/
def CanMove (s : St) (c t : Nat) : Prop := ∃ a s', ManagerAct c t a ∧ step s a = some s'

/-- Spec: a wait for this event returns. -/
def Returns (s : St) (h : Nat) : Prop := (s.ev h).ready = true

/-- Spec: `h` is the event of a command that was submitted. -/
def Submitted (s : St) (h : Nat) : Prop := ∃ c t, Obs.submit c t h ∈ s.log

/-- Spec: an infinite execution of a client that follows the rules of C54. `none` is a moment in which nothing happens. -/
structure Exec where
  st : Nat → St
  act : Nat → Option Act
  start : st 0 = init
  next : ∀ n, match act n with
    | none => st (n + 1) = st n
    | some a => Disciplined (st n) a ∧ step (st n) a = some (st (n + 1))

/-- Spec: a manager thread that is not blocked takes a step at some time. -/
def Fair (e : Exec) : Prop := ∀ c t n, (∀ m, n ≤ m → CanMove (e.st m) c t) → ∃ m a, n ≤ m ∧ e.act m = some a ∧ ManagerAct c t a

/-- Spec: every user event that is in the wait list of a command is set at some time (to whatever status). -/
def UserEventsSet (e : Exec) : Prop :=
  ∀ n h w, w ∈ (e.st n).waits h → ((e.st n).ev w).user = true → ∃ m, Returns (e.st m) w

/-- Spec: the client thread that takes the step. -/
def clientOf : Act → Option Nat
  | .createCtx i _ | .createUser i _ | .enqueue i _ _ _ | .enqueue2 i _ | .blocking i | .signal i _ _ | .signal2 i | .setCb i _ | .setCb2 i
  | .wait i _ | .wait2 i | .release i _ | .release2 i | .releaseCtx i _ | .releaseCtx2 i => some i
  | .pop _ _ | .dep _ _ | .run _ _ _ | .newCC _ _ => none

/-- Spec: client thread `i` is inside a call of the API. -/
def InCall (s : St) (i : Nat) : Prop := s.cl i ≠ .idle

/-- Spec: a client thread that is inside a call and not blocked takes a step at some time. -/
def ClientFair (e : Exec) (i : Nat) : Prop :=
  ∀ n, (∀ m, n ≤ m → InCall (e.st m) i ∧ ∃ a s', clientOf a = some i ∧ step (e.st m) a = some s') → ∃ m a, n ≤ m ∧ e.act m = some a ∧ clientOf a = some i

/-- Spec: the events that a running call of mcWaitForEvents still waits for. -/
def awaited : CPc → List Nat
  | .wait _ todo => todo
  | .waitBlock _ w rest => w :: rest
  | _ => []

end Mcut.Api
