import Verif.Spec.C23
import Verif.Props.C24

/-! Helper lemmas for `Props/C23.lean`. -/
namespace Mcut.CC
open Mcut.Sched
variable {D F : Type}

theorem triples_flatten : ∀ (n : Nat) (t : List Nat), t.length = 3 * n → (triples t).flatten = t
  | 0, t, h => by have : t = [] := List.length_eq_zero_iff.1 (by omega); subst this; rfl
  | n + 1, x :: y :: z :: r, h => by
    have := triples_flatten n r (by simp at h; omega)
    simp [triples, this]
  | n + 1, [], h => by simp at h
  | n + 1, [_], h => by simp at h; omega
  | n + 1, [_, _], h => by simp at h; omega

end Mcut.CC
