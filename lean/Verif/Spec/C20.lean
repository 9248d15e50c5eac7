import Verif.Model.CCData

/-! Specification notions used in the statements of `Props/C20.lean`. -/
namespace Mcut.CC

/-- Spec: the components (handle, type) whose type has a bit in common with the mask. -/
def matching (ccs : List (Nat × Nat)) (mask : Nat) : List (Nat × Nat) := ccs.filter (fun c => c.2 &&& mask ≠ 0)

end Mcut.CC
