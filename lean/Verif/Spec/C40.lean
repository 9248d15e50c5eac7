import Verif.Spec.C38
import Verif.Spec.C39

/-! Specification notions used in the statements of `Props/C40.lean`. -/
namespace Mcut.Dispatch
open Mcut.Hmesh Mcut.Preproc Mcut.Partition
variable {D : Type}

/-- Spec: the seams that have faces. -/
def seamMesh (ofSrc : Bool) : Option (D × Nat) → List (Kind × D)
  | some (d, n) => if n = 0 then [] else [(.seam ofSrc, d)]
  | none => []

/-- Spec: all meshes that the kernel found, each with its kind. -/
def Cand.meshes (c : Cand D) : List (Kind × D) :=
  c.sealedFrags.map (fun x => (.sealedFragment x.1 x.2.1, x.2.2)) ++ c.unsealed.map (fun x => (.unsealedFragment x.1, x.2)) ++
  c.patches.map (fun x => (.patch x.1, x.2)) ++ seamMesh true c.seamSrc ++ seamMesh false c.seamCut

/-- Spec: the flags ask for components of this kind (for unsealed fragments this is the rule of the code, see C39). -/
def Keeps (flags : Nat) : Kind → Prop
  | .sealedFragment l p => Wants flags l.bit ∧ Wants flags p.sealBit
  | .unsealedFragment l => Wants flags l.bit ∧ (Wants flags 10 ∨ Wants flags 7)
  | .patch p => Wants flags p.bit
  | .seam true => Wants flags 13
  | .seam false => Wants flags 14
  | .input _ => True

/-- Spec: the components of the two input meshes `ms` and `mc`, with one-to-one maps if asked for; those of the cut mesh are offset by the source mesh. -/
structure InputPair (flags : Nat) (ms mc : Mesh Pt) (a b : Stored D) : Prop where
  srcKind : a.kind = .input true
  cutKind : b.kind = .input false
  src : ∃ vm fm, a.data = .input ms vm fm ∧ (flags.testBit 3 = true → vm = List.range ms.numVertices) ∧ (flags.testBit 4 = true → fm = List.range ms.numFaces)
  cut : ∃ vm fm, b.data = .input mc vm fm ∧
    (flags.testBit 3 = true → vm.length = mc.numVertices ∧ ∀ i, i < mc.numVertices → vm[i]? = some (ms.numVertices + i)) ∧
    (flags.testBit 4 = true → fm.length = mc.numFaces ∧ ∀ i, i < mc.numFaces → fm[i]? = some (ms.numFaces + i))

end Mcut.Dispatch
