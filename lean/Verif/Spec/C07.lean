import Verif.Lemmas.C06

/-! Specification notions used in the statements of `Props/C07.lean`. -/
namespace Mcut.Ctx

/-- Spec: the states that can be queried and their sizes in bytes. -/
def infoSize (info : Word) : Option Nat :=
  if info = CONTEXT_FLAGS then some 4
  else if info = MAX_DEBUG_MESSAGE_LENGTH then some 8
  else if info = GP_CONSTANT then some 8
  else if info = GP_ATTEMPTS then some 4
  else if info = DISPATCH_INTERSECTION_TYPE then some 4
  else none

end Mcut.Ctx
