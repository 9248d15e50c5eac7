import Verif.Model.FaceProps
import Verif.Spec.C42

/-! Specification notions used in the statements of `Props/C64.lean`. -/
namespace Mcut.FaceProps
variable {R : Type}

/-- Spec: the table has the properties of exactly the given faces. -/
def TableOf (props : Nat → R) (faces : List Nat) (t : Table R) : Prop := ∀ f, t f = if f ∈ faces then some (props f) else none

/-- Spec: job `i` has not returned yet. -/
def Running (W : List (List Nat)) (s : Par R) (i : Nat) : Prop := ∃ w, W[i]? = some w ∧ s.pos i < w.length

end Mcut.FaceProps
