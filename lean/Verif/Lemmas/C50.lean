import Verif.Props.C32

/-! Helper lemmas for `Props/C50.lean`. -/
namespace Mcut.Hmesh
variable {P : Type}

theorem faceAcross_eq {m : Mesh P} (W : WF m) {h : Nat} (hh : LiveH m h) : m.faceAcross h = (m.hd (opposite h)).f := by
  unfold Mesh.faceAcross; rw [(W.half h hh).1]

theorem count_across (m : Mesh P) (g : Nat) (l : List Nat) : (l.filterMap m.faceAcross).count g =
    (l.filter (fun h => decide (m.faceAcross h = some g))).length := by
  induction l with
  | nil => rfl
  | cons h l ih =>
    rw [List.filterMap_cons, List.filter_cons]
    cases hf : m.faceAcross h with
    | none => simp [ih]
    | some x =>
      by_cases hx : x = g
      · subst hx; simp [ih]
      · simp [hx, ih]

theorem foldl_count (m : Mesh P) (l : List Nat) : ∀ c, l.foldl (fun c h => if (m.faceAcross h).isSome then c + 1 else c) c =
    c + (l.filterMap m.faceAcross).length := by
  induction l with
  | nil => intro c; rfl
  | cons h l ih =>
    intro c
    rw [List.foldl_cons, ih, List.filterMap_cons]
    cases m.faceAcross h with
    | none => simp
    | some x => simp; omega

end Mcut.Hmesh
