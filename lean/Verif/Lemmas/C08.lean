import Verif.Lemmas.ApiAll
import Verif.Spec.C08

/-! Helper lemmas for `Props/C08.lean`. -/
namespace Mcut.Api

theorem report_expect {s : St} (i : Inv s) (h : Nat) : report s h = ((expect (s.loc h)).2.1, (expect (s.loc h)).2.2.2.1) := by
  have := i.fields h
  unfold core at this
  rw [← this]; rfl

theorem next_forward {l l' : Loc} (n : Next l l') (hu : l ≠ .unborn) :
    Forward ((expect l).2.1, (expect l).2.2.2.1) ((expect l').2.1, (expect l').2.2.2.1) ∧
      ((expect l').2.1).rank ≤ ((expect l).2.1).rank + 1 := by
  cases n with
  | u3 i r => by_cases h : r = 0 <;> simp [expect, Forward, CStat.rank, h]
  | u4 i r => by_cases h : r = 0 <;> simp [expect, Forward, CStat.rank, h]
  | u5 i r => by_cases h : r = 0 <;> simp [expect, Forward, CStat.rank, h]
  | uOver i r => by_cases h : r = 0 <;> simp [expect, Forward, CStat.rank, h]
  | _ => simp [expect, Forward, CStat.rank] at hu ⊢

theorem Forward.refl (a : CStat × Int) : Forward a a := ⟨Nat.le_refl _, fun _ => rfl⟩

theorem Forward.trans {a b c : CStat × Int} (h1 : Forward a b) (h2 : Forward b c) : Forward a c := by
  refine ⟨Nat.le_trans h1.1 h2.1, fun ha => ?_⟩
  have := h1.2 ha; subst this; exact h2.2 ha

theorem step_forward {s s' : St} (st : Step s s') (h : Nat) (hu : s.loc h ≠ .unborn) :
    Forward (report s h) (report s' h) ∧ (report s' h).1.rank ≤ (report s h).1.rank + 1 := by
  rw [report_expect st.all.i, report_expect st.all'.i]
  rcases st.ln h with l | l
  · rw [l]; exact ⟨.refl _, by omega⟩
  · exact next_forward l hu

end Mcut.Api
