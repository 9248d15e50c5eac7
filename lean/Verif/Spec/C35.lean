import Verif.Model.Bvh

/-! Specification notions used in the statements of `Props/C35.lean`. -/
namespace Mcut.Bvh

/-- Spec: `L` is the number of the leaf level of a complete binary tree that is just deep enough for `t` leaves. -/
def LeafDepth (t L : Nat) : Prop := t ≤ 2 ^ L ∧ (L = 0 ∨ 2 ^ (L - 1) < t)

/-- Spec: the real nodes of the tree with `t` leaves on level `L` (root 0, children of `i` are `2i+1` and `2i+2`): the first `t`
nodes of level `L` and all their ancestors. -/
inductive Real (L t : Nat) : Nat → Prop
  | leaf (k : Nat) : k < t → Real L t (2 ^ L - 1 + k)
  | parentL (i : Nat) : Real L t (2 * i + 1) → Real L t i
  | parentR (i : Nat) : Real L t (2 * i + 2) → Real L t i

/-- Spec: the slot that the code uses for node `i` of a tree with `t` leaves (as in source/bvh.cpp:601-622). -/
def slot (t i : Nat) : Nat :=
  memIndex i (leftmost (levelOf i)) (levelRightmost (rightmostRealLeaf (leafLevel t) t) (leafLevel t) (levelOf i))

/-- Spec: the parent of a node in the numbering root 0, children `2i+1`, `2i+2`. -/
def parent (i : Nat) : Nat := (i - 1) / 2

end Mcut.Bvh
