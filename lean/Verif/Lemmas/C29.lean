import Verif.Spec.C29

/-! Helper lemmas for `Props/C29.lean`. -/
namespace Mcut.Hmesh
variable {P : Type}

instance (m : Mesh P) (v : Nat) : Decidable (LiveV m v) := by unfold LiveV Live; infer_instance
instance (m : Mesh P) (v : Nat) : Decidable (LiveE m v) := by unfold LiveE Live; infer_instance
instance (m : Mesh P) (v : Nat) : Decidable (LiveF m v) := by unfold LiveF Live; infer_instance
instance (m : Mesh P) (v : Nat) : Decidable (LiveH m v) := by unfold LiveH Live; infer_instance

instance (m : Mesh P) (vi : List Nat) : Decidable (GoodPolygon m vi) := by unfold GoodPolygon; infer_instance

/-- Removal of a vertex checked over the halfedge table. -/
def Op.legalB (m : Mesh P) : Op P → Bool
  | .addVertex _ => true
  | .addEdge v0 v1 => decide (LiveV m v0 ∧ LiveV m v1 ∧ v0 ≠ v1)
  | .addFace vi => decide (GoodPolygon m vi ∧ (m.addFace vi).2 ≠ none)
  | .removeFace f => decide (LiveF m f)
  | .removeEdge e => decide (LiveE m e ∧ m.face (halfedgeOf e 0) = none ∧ m.face (halfedgeOf e 1) = none)
  | .removeVertex v => decide (LiveV m v ∧ ∀ h, h < m.nH → (h ∈ m.hRem ∨ m.target h ≠ v))

theorem Op.legal_of {m : Mesh P} {op : Op P} (h : op.legalB m = true) : op.Legal m := by
  cases op <;> simp only [Op.legalB, decide_eq_true_eq] at h <;> try exact h
  · refine ⟨h.1, fun x hx => ?_⟩
    rcases h.2 x hx.1 with h1 | h1
    · exact absurd h1 hx.2
    · exact h1

/-- Running and checking a history. -/
def runAll (m : Mesh P) : List (Op P) → Option (Mesh P)
  | [] => some m
  | op :: rest => if op.legalB m then runAll (op.run m) rest else none

theorem runAll_reachable {d : P} : ∀ (l : List (Op P)) (m m' : Mesh P), Reachable d m → runAll m l = some m' → Reachable d m' := by
  intro l
  induction l with
  | nil => intro m m' h he; simp only [runAll, Option.some.injEq] at he; exact he ▸ h
  | cons op l ih =>
    intro m m' h he
    unfold runAll at he
    split at he
    · rename_i hl
      exact ih _ _ (Reachable.step m op h (Op.legal_of hl)) he
    · simp at he

end Mcut.Hmesh
