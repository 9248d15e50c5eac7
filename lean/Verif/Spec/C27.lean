import Verif.Model.Dispatch

/-! Specification notions used in the statements of `Props/C26.lean` and `Props/C27.lean`. -/
namespace Mcut.Partition
open Mcut.Hmesh
variable {P : Type}

/-- Spec: mesh `m` arises from `m0` by a series of partitions of faces; the list holds, newest first, the face that was divided (one part keeps its
number) and the number of the other part. -/
inductive Evolves (m0 : Mesh P) : List (Nat × Nat) → Mesh P → Prop where
  | refl : Evolves m0 [] m0
  | step {H : List (Nat × Nat)} {m : Mesh P} {s : Split P} {r : SplitResult P} :
      Evolves m0 H m → splitFace m s = some r → Evolves m0 ((s.face, r.child1) :: H) r.mesh

/-- Spec: the original face that a face is a part of. -/
def origin : List (Nat × Nat) → Nat → Nat
  | [], f => f
  | (parent, new) :: H, f => origin H (if f = new then parent else f)

end Mcut.Partition

namespace Mcut.Dispatch
open Mcut.Hmesh Mcut.Preproc Mcut.Partition

/-- Spec: a component, as the data queries see it, carries the partition data of a stored component. -/
structure Tagged {D A B : Type} (x : Stored D) (k : CC.Comp A B) : Prop where
  srcBirth : k.srcBirth = x.srcBirth
  cutBirth : k.cutBirth = x.cutBirth
  srcNewV : k.srcNewVerts = x.srcNewV
  cutNewV : k.cutNewVerts = x.cutNewV
  internalSrcV : k.internalSrcV = x.internalSrcV
  clientSrcV : k.clientSrcV = x.clientSrcV
  internalSrcF : k.internalSrcF = x.internalSrcF
  clientSrcF : k.clientSrcF = x.clientSrcF

end Mcut.Dispatch
