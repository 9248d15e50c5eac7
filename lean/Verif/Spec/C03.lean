import Verif.Model.Context

/-! Specification notions used in the statements of `Props/C03.lean`. -/
namespace Mcut.Ctx

/-- Spec: the argument triples the API wrapper lets through (source/mcut.cpp:166-186). -/
def Accepted (source type severity : Word) : Prop :=
  (source = SOURCE_ALL ∨ source = SOURCE_KERNEL) ∧
  (type = TYPE_ALL ∨ type = TYPE_ERROR ∨ type = TYPE_DEPRECATED ∨ type = TYPE_OTHER) ∧
  (severity = SEVERITY_ALL ∨ severity = SEVERITY_HIGH ∨ severity = SEVERITY_MEDIUM ∨ severity = SEVERITY_LOW ∨
    severity = SEVERITY_NOTIFICATION)

/-- Spec: decidability. -/
instance (s t v : Word) : Decidable (Accepted s t v) := by unfold Accepted; infer_instance

/-- Spec: what a single action says about filter bit `i` of the field with `k` known flags: `some enabled` if it is an accepted control call that
names the bit, `none` otherwise. `pick` selects the argument (source, type or severity) that goes with the field. -/
def says (pick : Word × Word × Word → Word) (k i : Nat) : Op → Option Bool
  | .control s t v e => if Accepted s t v ∧ i < k ∧ (pick (s, t, v)).getLsbD i = true then some e else none
  | _ => none

end Mcut.Ctx
