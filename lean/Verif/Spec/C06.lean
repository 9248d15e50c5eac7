import Verif.Lemmas.C04

/-! Specification notions used in the statements of `Props/C06.lean`. -/
namespace Mcut.Ctx

/-- Spec: the value of a bindable state as raw bytes (8 for the constant, 4 for the attempts and for the winding order). -/
def stateBytes (c : Ctx) (info : Word) : List Byte :=
  if info = GP_CONSTANT then leBytes 8 c.gpConstant.toNat
  else if info = GP_ATTEMPTS then leBytes 4 c.gpAttempts.toNat
  else leBytes 4 c.winding.toNat

/-- Spec: the three bindable states. -/
def Bindable (info : Word) : Prop := info = GP_CONSTANT ∨ info = GP_ATTEMPTS ∨ info = WINDING_ORDER

/-- Spec: size in bytes of a bindable state. -/
def stateSize (info : Word) : Nat := if info = GP_CONSTANT then 8 else 4

/-- Spec: a byte string of the right size whose value the library accepts: a double that is not `<= 0` (which includes NaN), a non-zero 32-bit
count, or one of the two winding orders. -/
def ValueAccepted (info : Word) (mem : List Byte) : Prop :=
  mem.length = stateSize info ∧
  ((info = GP_CONSTANT ∧ leZero (BitVec.ofNat 64 (leVal mem)) = false) ∨
   (info = GP_ATTEMPTS ∧ leVal mem ≠ 0) ∨
   (info = WINDING_ORDER ∧ (leVal mem = 1 ∨ leVal mem = 2)))

/-- Spec: the bytes bound to `info` by an action, if it is a successful bind of that state. -/
def binds (c : Ctx) (info : Word) : Op → Option (List Byte)
  | .bind i b (some mem) =>
    if i = info ∧ (mcBindState c i b (some mem)).2 = .noError then some (mem.take b) else none
  | _ => none

/-- Spec: the successful binds of `info` along a history, oldest first. -/
def boundValues (info : Word) : Ctx → List Op → List (List Byte)
  | _, [] => []
  | c, o :: ops => (binds c info o).toList ++ boundValues info (step c o).1 ops

/-- Spec: the client really owns the bytes it announces. -/
def WellFormed : Op → Prop
  | .bind _ b (some mem) => b ≤ mem.length
  | _ => True

end Mcut.Ctx
