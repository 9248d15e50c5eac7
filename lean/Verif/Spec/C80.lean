import Verif.Model.Colours
import Verif.Spec.C79
import Verif.Spec.C76

/-! Specification notions used in the statements of `Props/C80.lean`. -/
namespace Mcut.Patches
open Mcut.Hmesh Mcut.Trace
variable {P : Type}

/-- Spec: polygons `i` and `j` of the cut mesh meet in a cut edge. -/
def Across (polys : List (List Nat)) (smCount numCut i j : Nat) : Prop := ∃ x, InCut polys smCount i x ∧ InCut polys smCount j (opposite x) ∧ x < numCut

/-- Spec: the polygons for which `out` holds lie on one side of the source mesh, the others on the other side: going from polygon to polygon in the cut mesh, the side changes
exactly where the cut is crossed. -/
structure TwoSided (polys : List (List Nat)) (smCount numCut : Nat) (out : Nat → Prop) : Prop where
  stays : ∀ i j, Beside polys smCount numCut i j → (out i ↔ out j)
  turns : ∀ i j, Across polys smCount numCut i j → (out i ↔ ¬ out j)

/-- Spec: one can go from any polygon at the cut to any other one, in the cut mesh, through edges. -/
def EdgeConnected (polys : List (List Nat)) (smCount numCut : Nat) : Prop :=
  ∀ i j, AtCut polys smCount numCut i → AtCut polys smCount numCut j → Relation.EqvGen (fun a b => Beside polys smCount numCut a b ∨ Across polys smCount numCut a b) i j

/-- Spec: `keys` are the patches that occur in `adj`, each once, in some order. -/
def KeysOf (adj : List (Nat × Nat)) (keys : List Nat) : Prop := keys.Nodup ∧ ∀ k, k ∈ keys ↔ ∃ e ∈ adj, e.1 = k ∨ e.2 = k

/-- Spec: halfedge `x` of polygon `i` of the cut mesh ends in a point where the boundary of its face passes through a face of the source mesh, from the front to the back. -/
def EntersAt (ps m0 : Mesh P) (smF base : Nat) (pts : Nat → List Nat) (sort : Nat → Nat → List Nat → List Nat) (pieces : Nat → List Nat) (reg : List (Nat × Nat)) (down : Nat → Nat → Prop)
    (o : Out) (i x : Nat) : Prop :=
  ∃ f p h g, o.faceOf i = some f ∧ smF ≤ f ∧ o.polygons[i]? = some p ∧ x ∈ p ∧ Arrives ps m0 base pts sort pieces reg h g x ∧ down h g

/-- Spec: `M` names the polygons of the cut mesh whose boundary enters the source mesh, each once, with the first halfedge that does. -/
structure ExteriorOf (ps m0 : Mesh P) (smF base : Nat) (pts : Nat → List Nat) (sort : Nat → Nat → List Nat → List Nat) (pieces : Nat → List Nat) (reg : List (Nat × Nat))
    (down : Nat → Nat → Prop) (o : Out) (M : List (Nat × Nat)) : Prop where
  nodup : (M.map Prod.fst).Nodup
  exact : ∀ i, i ∈ M.map Prod.fst ↔ ∃ x, EntersAt ps m0 smF base pts sort pieces reg down o i x
  first : ∀ e ∈ M, ∃ p x, o.polygons[e.1]? = some p ∧ p[e.2]? = some x ∧ EntersAt ps m0 smF base pts sort pieces reg down o e.1 x ∧
    ∀ k y, k < e.2 → p[k]? = some y → ¬ EntersAt ps m0 smF base pts sort pieces reg down o e.1 y

/-- Spec: every patch has one of the two colours, and not the other; only patches have colours; two patches have the same colour exactly if their polygons are on the same side. -/
structure ColoursOf (ps : List (List Nat)) (out : Nat → Prop) (red blue : List Nat) : Prop where
  nodup : (red ++ blue).Nodup
  all : ∀ k, k ∈ red ++ blue ↔ k < ps.length
  same : ∀ k k' l l' i i', ps[k]? = some l → ps[k']? = some l' → i ∈ l → i' ∈ l' → ((k ∈ red ↔ k' ∈ red) ↔ (out i ↔ out i'))

end Mcut.Patches
