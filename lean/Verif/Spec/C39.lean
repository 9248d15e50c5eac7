import Verif.Model.Dispatch

/-! Specification notions used in the statements of `Props/C39.lean`. -/
namespace Mcut.Dispatch

/-- Spec: one of the filter flags (bits 5 to 14) is set. -/
def Filtering (flags : Nat) : Prop := ∃ i, 5 ≤ i ∧ i ≤ 14 ∧ flags.testBit i = true

/-- Spec: the kind with this flag bit is wanted: no filter at all, or the flag is set. -/
def Wants (flags bit : Nat) : Prop := Filtering flags → flags.testBit bit = true

/-- Spec: flag bits of the location of a fragment (MC_DISPATCH_FILTER_FRAGMENT_LOCATION_*). -/
def FragLoc.bit : FragLoc → Nat
  | .above => 5
  | .below => 6
  | .undefined => 7

/-- Spec: flag bits of the sealing of a fragment (MC_DISPATCH_FILTER_FRAGMENT_SEALING_INSIDE / _OUTSIDE). -/
def PatchLoc.sealBit : PatchLoc → Nat
  | .inside => 8
  | _ => 9

/-- Spec: flag bits of patches (MC_DISPATCH_FILTER_PATCH_*). -/
def PatchLoc.bit : PatchLoc → Nat
  | .inside => 11
  | _ => 12

/-- Spec: the kernel knows the location of all patches, also of those that seal fragments, and finds none when holes cannot be filled. -/
structure Cand.Sound {D : Type} (c : Cand D) : Prop where
  patches : ∀ x ∈ c.patches, x.1 ≠ .undefined
  sealing : ∀ x ∈ c.sealedFrags, x.2.1 ≠ .undefined
  fills : c.fills = false → c.patches = [] ∧ c.sealedFrags = []

end Mcut.Dispatch
