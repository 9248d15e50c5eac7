import Verif.Lemmas.ApiRets
import Verif.Lemmas.ApiCb2
import Verif.Spec.C09

/-! Helper lemmas for `Props/C09.lean`. -/
namespace Mcut.Api

theorem timesRun_eq (s : St) (k : Nat) : timesRun s k = (s.cbs.filterMap CbObs.callOf).count k := by
  unfold timesRun
  induction s.cbs with
  | nil => rfl
  | cons o l ih =>
    cases o with
    | reg h k' => simp only [List.filter_cons, List.filterMap_cons, CbObs.callOf, Bool.false_eq_true, if_false]; exact ih
    | call h k' v =>
      simp only [List.filter_cons, List.filterMap_cons, CbObs.callOf, List.count_cons]
      by_cases hk : k' = k
      · simp [hk, ih]
      · simp [hk, ih]

theorem timesRun_pos {s : St} {h k : Nat} {v : Via} (hm : CbObs.call h k v ∈ s.cbs) : 0 < timesRun s k := by
  rw [timesRun_eq]
  apply List.count_pos_iff.2
  exact List.mem_filterMap.2 ⟨_, hm, rfl⟩

theorem stop_mem {s : St} (i : Inv s) {h c t : Nat} {r : Int} (hh : Obs.stop c t h r ∈ obsOf h (s.loc h)) : Obs.stop c t h r ∈ s.log := by
  rw [← i.hist h] at hh; exact (List.mem_filter.1 hh).1

theorem fin_ended {s : St} (i : Inv s) {h : Nat} (hf : (s.ev h).fin = true) : Ended s h ∨ Accepted s h := by
  have h1 := i.fields h
  simp only [core] at h1
  cases hl : s.loc h with
  | fin1 c t r => exact Or.inl ⟨c, t, r, stop_mem i (by rw [hl]; simp [obsOf])⟩
  | fin2 c t r => exact Or.inl ⟨c, t, r, stop_mem i (by rw [hl]; simp [obsOf])⟩
  | fin3 c t r => exact Or.inl ⟨c, t, r, stop_mem i (by rw [hl]; simp [obsOf])⟩
  | fin4 c t r => exact Or.inl ⟨c, t, r, stop_mem i (by rw [hl]; simp [obsOf])⟩
  | over c t r => exact Or.inl ⟨c, t, r, stop_mem i (by rw [hl]; simp [obsOf])⟩
  | u4 j r => rw [hl] at h1; simp [expect] at h1; exact Or.inr ⟨h1.1, hf⟩
  | u5 j r => rw [hl] at h1; simp [expect] at h1; exact Or.inr ⟨h1.1, hf⟩
  | uOver r => rw [hl] at h1; simp [expect] at h1; exact Or.inr ⟨h1.1, hf⟩
  | _ => rw [hl] at h1; simp [expect] at h1; rw [h1.2.2.1] at hf; simp at hf

theorem newest_fn {s : St} (k : CInv s) {h n : Nat} (hn : Newest s h n) : (s.ev h).fn = some n := by
  obtain ⟨m, h1, h2⟩ := k.last h n hn.1
  have := hn.2 m (k.fnReg h m h1)
  have : m = n := by omega
  rw [h1, this]

theorem ran_once {s : St} (k : CInv s) (nn : NInv s) {h n : Nat} (hn : Newest s h n) (hl : notified (s.loc h) = true) : timesRun s n = 1 := by
  have hf := newest_fn k hn
  have hi : (s.ev h).inv = true := by
    rcases nn.inv h hl with a | a
    · exact a
    · simp [Ev.cb, hf] at a
  obtain ⟨v, hv⟩ := k.done h n hf hi
  have h1 := timesRun_pos hv
  have h2 : timesRun s n ≤ 1 := by rw [timesRun_eq]; exact List.nodup_iff_count_le_one.1 k.cnd n
  omega

end Mcut.Api
