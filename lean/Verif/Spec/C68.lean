import Verif.Model.Floating
import Verif.Spec.C67

/-! Specification notions used in the statements of `Props/C68.lean`. -/
namespace Mcut.Floating
open Mcut.CutPaths

/-- Spec: every point of the sequence is the point where some edge pierces face `f`. -/
def AllPierce (reg : List (Nat × Nat)) (base : Nat) (ends : Nat → Nat × Nat) (seq : List Nat) (f : Nat) : Prop :=
  ∀ e ∈ seq, ∀ v, ((ends e).1 = v ∨ (ends e).2 = v) → ∃ x, base ≤ v ∧ reg[v - base]? = some (x, f)

/-- Spec: `vs` are the points of a closed loop in order around it, each once: `seq'` are the edges of the loop in that order. -/
def Round (ends : Nat → Nat × Nat) (seq vs : List Nat) : Prop :=
  ∃ seq' p, seq'.Perm seq ∧ Along ends seq' p ∧ p seq'.length = p 0 ∧ vs = (List.range seq.length).map p ∧ vs.Nodup

end Mcut.Floating
