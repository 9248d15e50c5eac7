import Verif.Model.Box
import Mathlib.Tactic.Tauto

/-! Specification notions used in the statements of `Props/C37.lean`. -/
namespace Mcut.Box
variable {α : Type*} [LinearOrder α]

/-- Spec: a point lies in a (closed) box. -/
def Mem (p : V3 α) (b : BBox α) : Prop :=
  b.lo.x ≤ p.x ∧ p.x ≤ b.hi.x ∧ b.lo.y ≤ p.y ∧ p.y ≤ b.hi.y ∧ b.lo.z ≤ p.z ∧ p.z ≤ b.hi.z

/-- Spec: box inclusion by bounds. -/
def Sub (a b : BBox α) : Prop :=
  b.lo.x ≤ a.lo.x ∧ a.hi.x ≤ b.hi.x ∧ b.lo.y ≤ a.lo.y ∧ a.hi.y ≤ b.hi.y ∧ b.lo.z ≤ a.lo.z ∧ a.hi.z ≤ b.hi.z

/-- Spec: all coordinates lie between the sentinels (finite doubles). -/
def InRange (bot top : α) (p : V3 α) : Prop :=
  bot ≤ p.x ∧ p.x ≤ top ∧ bot ≤ p.y ∧ p.y ≤ top ∧ bot ≤ p.z ∧ p.z ≤ top

end Mcut.Box
