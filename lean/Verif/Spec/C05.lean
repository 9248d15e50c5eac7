import Verif.Lemmas.C04

/-! Specification notions used in the statements of `Props/C05.lean`. -/
namespace Mcut.Ctx

/-- Spec: total length of a list of messages. -/
def totalLen (ms : List Msg) : Nat := (ms.map (fun m => m.str.length)).sum

/-- Spec: the array entries describing a message. -/
def entry (m : Msg) : Word × Word × Word × Nat := (m.source, m.type, m.severity, m.str.length)

end Mcut.Ctx
