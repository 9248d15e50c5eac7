import Verif.Model.Api

/-! Specification notions used in the statements of `Props/C01.lean`. -/
namespace Mcut.Api

/-- Spec: the handle that a finished client call returned for a new object, if it returned one. -/
def newHandle : Nat × Call × Int → Option Nat
  | (_, .createContext c, 0) => some c
  | (_, .createUserEvent _ h, 0) => some h
  | (_, .enqueue _ h _, 0) => some h
  | _ => none

/-- Spec: all handles returned to clients by creating calls so far, newest first. -/
def handedOut (s : St) : List Nat := s.rets.filterMap newHandle

/-- Spec: `h` is the handle of a live context, of a live event or of a connected component of context `c`. -/
inductive Denotes (s : St) (h : Nat) : Option (Option Nat) → Prop
  | context : h ∈ s.ctxs → Denotes s h none
  | event : h ∈ s.evs → Denotes s h (some none)
  | component (c : Nat) : h ∈ s.ccs c → Denotes s h (some (some c))

end Mcut.Api
