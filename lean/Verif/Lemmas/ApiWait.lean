import Verif.Lemmas.ApiAll
import Verif.Lemmas.C01
/-! Wait lists in the API model: what a finished wait tells about the events waited for. -/
namespace Mcut.Api

/-- A wait on an event in this phase succeeds, or did so at some point. -/
def passed : Loc → Bool
  | .skipped _ _ | .u2 _ | .uBad | .u3 _ _ | .u4 _ _ | .u5 _ _ | .uOver _ => true
  | .over _ _ r => r = 0
  | _ => false

/-- The command's work has begun. -/
def started : Loc → Bool
  | .running _ _ | .ran _ _ _ | .fin1 _ _ _ | .fin2 _ _ _ | .fin3 _ _ _ | .fin4 _ _ _ | .over _ _ _ => true
  | _ => false

/-- A wait on an event in this phase fails with `r`. -/
def failedWith (r : Int) : Loc → Bool
  | .over _ _ r' | .u5 _ r' | .uOver r' => r' = r
  | _ => false

theorem passed_next {l l' : Loc} (n : Next l l') (h : passed l = true) : passed l' = true := by
  cases n <;> simp [passed] at h ⊢

theorem failedWith_next {l l' : Loc} (r : Int) (n : Next l l') (h : failedWith r l = true) : failedWith r l' = true := by
  cases n <;> simp [failedWith] at h ⊢; exact h

theorem started_next {l l' : Loc} (n : Next l l') (h : started l' = true) : started l = true ∨ ∃ c t, l = .pre c t ∧ l' = .running c t := by
  cases n <;> simp [started] at h ⊢

theorem Step.passed {s s' : St} (st : Step s s') {w : Nat} (h : passed (s.loc w) = true) : passed (s'.loc w) = true := by
  rcases st.ln w with l | l
  · rw [l]; exact h
  · exact passed_next l h

theorem Step.failedWith {s s' : St} (st : Step s s') {w : Nat} {r : Int} (h : failedWith r (s.loc w) = true) : failedWith r (s'.loc w) = true := by
  rcases st.ln w with l | l
  · rw [l]; exact h
  · exact failedWith_next r l h

theorem passed_of {s : St} (i : Inv s) {w : Nat} (hr : (s.ev w).ready = true) (h0 : (s.ev w).rt = 0) : passed (s.loc w) = true := by
  have := i.fields w
  simp only [core] at this
  cases hl : s.loc w <;> rw [hl] at this <;> simp [expect, hr, h0] at this <;> simp [passed]
  exact this.2.2.2.1.symm

theorem failed_of {s : St} (i : Inv s) {w : Nat} (hr : (s.ev w).ready = true) (h0 : (s.ev w).rt ≠ 0) :
    failedWith (s.ev w).rt (s.loc w) = true := by
  have := i.fields w
  simp only [core] at this
  cases hl : s.loc w <;> rw [hl] at this <;> simp [expect, hr] at this <;> simp [failedWith]
  all_goals first
    | exact this.2.2.2.1.symm
    | (exfalso; exact h0 this.2.2.2.1)

/-- The part of the wait list a manager still has to look at. -/
def mTodo : MPc → Option (Task × List Nat)
  | .lookup k todo => some (k, todo)
  | .block k w rest => some (k, w :: rest)
  | _ => none

/-- The part of the wait list a waiting client still has to look at. -/
def cTodo : CPc → Option (List Nat × List Nat)
  | .wait all todo => some (all, todo)
  | .waitBlock all w rest => some (all, w :: rest)
  | _ => none

/-- Invariant of the managers' waits. -/
structure MInv (s : St) : Prop where
  todo : ∀ c t k todo, mTodo (s.mgr c t) = some (k, todo) → ∃ p, s.waits k.ev = p ++ todo ∧ ∀ w ∈ p, passed (s.loc w) = true
  st : ∀ h, started (s.loc h) = true → ∀ w ∈ s.waits h, passed (s.loc w) = true

theorem step_waits {s s' : St} (st : Step s s') (h : Nat) (hb : s.loc h ≠ .unborn) : s'.waits h = s.waits h := by
  obtain ⟨⟨i, i2, hi⟩, al', hub, tr, ln, lu⟩ := id st
  cases tr with
  | enqueue j c ws blk hp hw hbb hc =>
    simp only [setC_waits, setEv_waits]
    rw [upd_other _ _ _ _ (by rintro rfl; exact hb (i.fresh _ (Nat.le_refl _)))]
  | createCtx j ooo hp => simp [createCtx]
  | _ => simp

theorem MInv.keep {s s' : St} (m : MInv s) (st : Step s s')
    (h1 : ∀ c t, mTodo (s'.mgr c t) = mTodo (s.mgr c t) ∨ mTodo (s'.mgr c t) = none)
    (h2 : ∀ c t k, s.mgr c t = .lookup k [] → s'.loc k.ev ≠ .running c t) : MInv s' := by
  have hle : ∀ c t k todo, mTodo (s.mgr c t) = some (k, todo) → s.loc k.ev = .pre c t := by
    intro c t k todo h
    apply st.all.i.pcs (.mg c t)
    simp only [expA]
    cases hm : s.mgr c t <;> rw [hm] at h <;> simp [mTodo] at h <;> obtain ⟨rfl, _⟩ := h <;> rfl
  refine ⟨?_, ?_⟩
  · intro c t k todo h
    rcases h1 c t with e | e
    · rw [e] at h
      obtain ⟨p, hp, hw⟩ := m.todo c t k todo h
      refine ⟨p, ?_, fun w hw' => st.passed (hw w hw')⟩
      rw [step_waits st _ (by rw [hle _ _ _ _ h]; simp)]; exact hp
    · rw [e] at h; simp at h
  · intro h hs w hw
    have old : started (s.loc h) = true := by
      rcases st.ln h with l | l
      · rw [l] at hs; exact hs
      · rcases started_next l hs with l | ⟨c, t, l1, l2⟩
        · exact l
        · exfalso
          have hm := st.all.i.conv h (.mg c t) (by rw [l1]; rfl)
          rw [l1] at hm
          have hm' := st.all'.i.conv h (.mg c t) (by rw [l2]; rfl)
          rw [l2] at hm'
          simp only [expA] at hm hm'
          -- the manager is at the end of its wait list
          obtain ⟨⟨i, i2, hi⟩, al', hub, tr, ln, lu⟩ := id st
          have hcase : (∃ k, s.mgr c t = .lookup k [] ∧ k.ev = h) := by
            cases tr
            all_goals try (simp only [setC_loc, setM_loc, ret_loc, bad_loc, obs_loc, setWhy_loc, holdEv_loc, dropEv_loc, removeEv_loc, dropCtx_loc, holdCtx_loc, setCb_loc, createCtx] at l2; rw [l1] at l2; simp at l2; done)
            all_goals try (simp at l2; rcases upd_cases l2 with ⟨_, l2⟩ | ⟨_, l2⟩ <;> first | (simp at l2; done) | (rw [l1] at l2; simp at l2; done))
            all_goals
              rename_i c' t' k hn hp hd ha
              simp at l2
              rcases upd_cases l2 with ⟨l3, l2⟩ | ⟨_, l2⟩
              · simp at l2; obtain ⟨rfl, rfl⟩ := l2; exact ⟨k, hp, l3.symm⟩
              · rw [l1] at l2; simp at l2
          obtain ⟨k, hk, rfl⟩ := hcase
          exact h2 c t k hk l2
    rw [step_waits st h (by intro hu; rw [hu] at old; simp [started] at old)] at hw
    exact st.passed (m.st h old w hw)

theorem upd2_cases {α : Type} {f : Nat → Nat → α} {c t c' t' : Nat} {v : α} {P : α → Prop} (h1 : c' = c → t' = t → P v)
    (h2 : ¬ (c' = c ∧ t' = t) → P (f c' t')) : P (upd2 f c t v c' t') := by
  by_cases h : c' = c ∧ t' = t
  · obtain ⟨rfl, rfl⟩ := h; rw [upd2_same]; exact h1 rfl rfl
  · rw [upd2_other _ _ _ _ _ _ h]; exact h2 h

theorem minv_step {s s' : St} (st : Step s s') (m : MInv s) : MInv s' := by
  obtain ⟨⟨i, i2, hi⟩, al', hub, tr, ln, lu⟩ := id st
  have startCase : ∀ c t k, s.mgr c t = .lookup k [] → s'.mgr = upd2 s.mgr c t (.run k) → s'.loc = upd s.loc k.ev (.running c t) →
      MInv s' := by
    intro c t k hp hm hl
    refine ⟨?_, ?_⟩
    · intro c' t' k' todo h
      rw [hm] at h
      by_cases hct : c' = c ∧ t' = t
      · obtain ⟨rfl, rfl⟩ := hct; rw [upd2_same] at h; simp [mTodo] at h
      · rw [upd2_other _ _ _ _ _ _ hct] at h
        obtain ⟨p, hp', hw⟩ := m.todo c' t' k' todo h
        refine ⟨p, ?_, fun w hw' => st.passed (hw w hw')⟩
        rw [step_waits st _ ?_]; exact hp'
        intro hu
        have : s.loc k'.ev = .pre c' t' := by
          apply i.pcs (.mg c' t'); simp only [expA]
          cases hm : s.mgr c' t' <;> rw [hm] at h <;> simp [mTodo] at h <;> obtain ⟨rfl, _⟩ := h <;> rfl
        rw [hu] at this; simp at this
    · intro h hs w hw
      have hb : s.loc h ≠ .unborn := by
        rcases ln h with l | l
        · rw [l] at hs; intro hu; rw [hu] at hs; simp [started] at hs
        · intro hu
          rcases started_next l hs with l | ⟨_, _, l, _⟩ <;> rw [hu] at l <;> simp [started] at l
      rw [step_waits st h hb] at hw
      by_cases hh : h = k.ev
      · subst hh
        obtain ⟨p, hp', hw'⟩ := m.todo c t k [] (by rw [hp]; rfl)
        rw [hp', List.append_nil] at hw
        exact st.passed (hw' w hw)
      · rw [hl, upd_other _ _ _ _ hh] at hs
        exact st.passed (m.st h hs w hw)
  have other : ∀ c t p, s'.mgr = upd2 s.mgr c t p → (mTodo p = mTodo (s.mgr c t) ∨ mTodo p = none) →
      ∀ c' t', mTodo (s'.mgr c' t') = mTodo (s.mgr c' t') ∨ mTodo (s'.mgr c' t') = none := by
    intro c t p hm hp c' t'
    rw [hm]
    exact upd2_cases (P := fun v => mTodo v = mTodo (s.mgr c' t') ∨ mTodo v = none) (fun a b => by rw [a, b]; exact hp) (fun _ => Or.inl rfl)
  cases tr with
  | start c t k hn hp hd ha => exact startCase c t k hp (by simp) (by simp)
  | startDead c t k hn hp hd ha => exact startCase c t k hp (by simp) (by simp)
  | pop c t k rest hn hp hq hd =>
    have hk := i.q c t k (by rw [hq]; simp)
    refine ⟨?_, ?_⟩
    · intro c' t' k' todo h
      simp only [setM_mgr, setEv_mgr] at h
      by_cases hct : c' = c ∧ t' = t
      · obtain ⟨rfl, rfl⟩ := hct; rw [upd2_same] at h; simp [mTodo] at h
        obtain ⟨rfl, rfl⟩ := h
        exact ⟨[], by simp [hk.2], by simp⟩
      · rw [upd2_other _ _ _ _ _ _ hct] at h
        obtain ⟨p, hp', hw⟩ := m.todo c' t' k' todo h
        exact ⟨p, by simpa using hp', fun w hw' => st.passed (hw w hw')⟩
    · intro h hs w hw
      simp only [setM_loc, setEv_loc] at hs
      simp only [setM_waits, setEv_waits] at hw
      by_cases hh : h = k.ev
      · subst hh; rw [upd_same] at hs; simp [started] at hs
      · rw [upd_other _ _ _ _ hh] at hs
        exact st.passed (m.st h hs w hw)
  | depNext c t k w rest hn hp hr h0 =>
    refine ⟨?_, ?_⟩
    · intro c' t' k' todo h
      simp only [setM_mgr, dropEv_mgr] at h
      by_cases hct : c' = c ∧ t' = t
      · obtain ⟨rfl, rfl⟩ := hct; rw [upd2_same] at h; simp [mTodo] at h
        obtain ⟨rfl, rfl⟩ := h
        obtain ⟨p, hp', hw⟩ := m.todo c' t' k (w :: rest) (by rw [hp]; rfl)
        refine ⟨p ++ [w], by simpa using hp', ?_⟩
        intro x hx
        simp at hx
        rcases hx with hx | rfl
        · exact st.passed (hw x hx)
        · exact st.passed (passed_of i hr h0)
      · rw [upd2_other _ _ _ _ _ _ hct] at h
        obtain ⟨p, hp', hw⟩ := m.todo c' t' k' todo h
        exact ⟨p, by simpa using hp', fun w hw' => st.passed (hw w hw')⟩
    · intro h hs x hx
      simp only [setM_loc, dropEv_loc] at hs
      simp only [setM_waits, dropEv_waits] at hx
      exact st.passed (m.st h hs x hx)
  | depFind c t k w rest hn hp he =>
    exact m.keep st (other c t _ (by simp; rfl) (by rw [hp]; exact Or.inl rfl)) (by intro c' t' k' hk; simp; rw [i.locM hk (h := k'.ev) rfl]; simp)
  | _ =>
    refine m.keep st ?_ ?_
    · first
        | (intro c t; left; simp [createCtx]; done)
        | (refine other _ _ _ (by simp; rfl) (Or.inr rfl))
    · intro c' t' k' hk h
      have hl := i.locM hk (h := k'.ev) rfl
      simp [createCtx] at h
      first
        | (rw [hl] at h; simp at h; done)
        | (rcases upd_cases h with ⟨_, h⟩ | ⟨_, h⟩
           · simp at h
           · rw [hl] at h; simp at h)

theorem minv {s : St} (h : Reachable s) : MInv s := by
  refine reach_ind ?_ (fun _ _ st k => minv_step st k) h
  refine ⟨?_, ?_⟩ <;> simp [init, mTodo, started]

end Mcut.Api
