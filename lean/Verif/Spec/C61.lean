import Verif.Model.Pairs
import Verif.Spec.C60
import Verif.Spec.C37

/-! Specification notions used in the statements of `Props/C61.lean`. -/
namespace Mcut.Pairs
open Mcut.Hmesh Mcut.Box
variable {P : Type}

/-- Spec: edge `e` is an edge of face `f`. -/
def OnFace (ps : Mesh P) (e f : Nat) : Prop := ∃ h ∈ ps.fh f, edgeOf h = e

/-- Spec: a map from faces to the faces they may meet: sorted keys (it is a `std::map`), which are live faces; no face is listed twice. -/
structure IsFaceMap (ps : Mesh P) (pairs : FaceMap) : Prop where
  sorted : pairs.Pairwise (fun a b => a.1 < b.1)
  live : ∀ kv ∈ pairs, LiveF ps kv.1
  nodup : ∀ kv ∈ pairs, kv.2.Nodup

/-- Spec: no face of the mesh passes the same edge twice. -/
def SimpleFaces (ps : Mesh P) : Prop := ∀ f, LiveF ps f → ∀ h ∈ ps.fh f, opposite h ∉ ps.fh f

/-- Spec: the edge map says for exactly the edges of the listed faces, without repetition and in increasing order, which faces the faces at the edge may meet. -/
structure EdgeMapOf (ps : Mesh P) (pairs : FaceMap) (M : EdgeMap) : Prop where
  keys : ∀ e, (M e).isSome ↔ ∃ kv ∈ pairs, OnFace ps e kv.1
  sorted : ∀ e l, M e = some l → l.Pairwise (· < ·)
  faces : ∀ e l, M e = some l → ∀ g, g ∈ l ↔ ∃ kv ∈ pairs, OnFace ps e kv.1 ∧ g ∈ kv.2

/-- Spec: face `f` belongs to the source mesh (of `smF` faces) and `g` to the cut mesh, or the other way round. -/
def OtherSide (smF f g : Nat) : Prop := (f < smF ∧ smF ≤ g) ∨ (g < smF ∧ smF ≤ f)

end Mcut.Pairs
