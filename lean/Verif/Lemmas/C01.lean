import Verif.Lemmas.ApiAll
import Verif.Spec.C01

/-! Helper lemmas for `Props/C01.lean`. -/
namespace Mcut.Api

/-- Handles by kind. -/
structure KInv (s : St) : Prop where
  giv : handedOut s = s.returned
  rnd : s.returned.Nodup
  cnd : s.ctxs.Nodup
  end' : s.evs.Nodup
  ctxU : ∀ c ∈ s.ctxs, s.loc c = .unborn
  ccNd : ∀ c, (s.ccs c).Nodup
  ccDj : ∀ c c' h, h ∈ s.ccs c → h ∈ s.ccs c' → c = c'
  ccU : ∀ c, ∀ h ∈ s.ccs c, s.loc h = .unborn ∧ h ∉ s.returned ∧ h < s.counter

@[simp] theorem newHandle_blocking (i c h : Nat) (r : Int) : newHandle (i, .blocking c h, r) = none := rfl

@[simp] theorem newHandle_sus (i h : Nat) (k r : Int) : newHandle (i, .setUserEventStatus h k, r) = none := rfl

@[simp] theorem newHandle_sec (i h : Nat) (r : Int) : newHandle (i, .setEventCallback h, r) = none := rfl

@[simp] theorem newHandle_wfe (i : Nat) (ws : List Nat) (o : WaitOut) (r : Int) : newHandle (i, .waitForEvents ws o, r) = none := rfl

@[simp] theorem newHandle_re (i : Nat) (r : Int) : newHandle (i, .releaseEvents, r) = none := rfl

@[simp] theorem newHandle_rc (i c : Nat) (r : Int) : newHandle (i, .releaseContext c, r) = none := rfl

@[simp] theorem newHandle_bad (i : Nat) (c : Call) : newHandle (i, c, INVALID_VALUE) = none := by
  cases c <;> rfl

theorem kinv_init : KInv init := by
  refine ⟨rfl, ?_, ?_, ?_, ?_, ?_, ?_, ?_⟩ <;> simp [init]

theorem KInv.keep {s s' : St} (k : KInv s) (st : Step s s')
    (h1 : s'.counter = s.counter) (hr : handedOut s' = handedOut s) (h6 : s'.returned = s.returned)
    (h3 : s'.ctxs.Sublist s.ctxs) (h4 : s'.evs.Sublist s.evs) (h8 : s'.ccs = s.ccs) : KInv s' := by
  have hl : ∀ x, s.loc x = .unborn → s'.loc x = .unborn := st.lu h1
  refine ⟨?_, ?_, ?_, ?_, ?_, ?_, ?_, ?_⟩
  · rw [hr, h6]; exact k.giv
  · rw [h6]; exact k.rnd
  · exact k.cnd.sublist h3
  · exact k.end'.sublist h4
  · intro c hc; exact hl c (k.ctxU c (h3.subset hc))
  · rw [h8]; exact k.ccNd
  · rw [h8]; exact k.ccDj
  · rw [h8, h6, h1]; intro c h hh; have := k.ccU c h hh; exact ⟨hl h this.1, this.2⟩

theorem kinv_step {s s' : St} (st : Step s s') (k : KInv s) : KInv s' := by
  obtain ⟨⟨i, i2, hi⟩, al', hub, tr, ln, lu⟩ := id st
  have hfr : ∀ {x}, s.counter ≤ x → x ∉ s.issued := by
    intro x hx hc; have := i2.iss x hc; omega
  have hret : ∀ {x}, s.counter ≤ x → x ∉ s.returned := by
    intro x hx hc; exact hfr hx (i2.rt x hc).1
  have hctx : ∀ {x}, s.counter ≤ x → x ∉ s.ctxs := by
    intro x hx hc; exact hret hx (i2.ctxIss x hc)
  have hevs : ∀ {x}, s.counter ≤ x → x ∉ s.evs := by
    intro x hx hc; exact i.evsLoc x hc (i.fresh x hx)
  cases tr with
  | createCtx j ooo hp =>
    have hb : s.counter ≤ base s := by
      unfold base
      cases hi : s.inited with
      | false => simp [(i2.ini hi).1]
      | true => simp
    refine ⟨?_, ?_, ?_, ?_, ?_, ?_, ?_, ?_⟩
    · have := k.giv; simp only [handedOut] at this ⊢; simp [createCtx, newHandle, this]
    · simp only [createCtx, ret_returned, List.nodup_cons]; exact ⟨hret hb, k.rnd⟩
    · simp only [createCtx, ret_ctxs, List.nodup_cons]; exact ⟨hctx hb, k.cnd⟩
    · simpa [createCtx] using k.end'
    · simp only [createCtx, ret_ctxs, List.mem_cons, ret_loc]
      rintro c (rfl | hc)
      · exact i.fresh _ hb
      · exact k.ctxU c hc
    · simpa [createCtx] using k.ccNd
    · simpa [createCtx] using k.ccDj
    · simp only [createCtx, ret_ccs, ret_loc, ret_returned, ret_counter]
      intro c h hh
      have := k.ccU c h hh
      refine ⟨this.1, ?_, by omega⟩
      simp only [List.mem_cons, not_or]; exact ⟨by omega, this.2.1⟩
  | createUser j c hp hc =>
    refine ⟨?_, ?_, ?_, ?_, ?_, ?_, ?_, ?_⟩
    · have := k.giv; simp only [handedOut] at this ⊢; simp [newHandle, this]
    · simp only [ret_returned, setEv_returned, List.nodup_cons]; exact ⟨hret (Nat.le_refl _), k.rnd⟩
    · simpa using k.cnd
    · simp only [ret_evs, setEv_evs, List.nodup_cons]; exact ⟨hevs (Nat.le_refl _), k.end'⟩
    · simp only [ret_ctxs, setEv_ctxs, ret_loc, setEv_loc]
      intro c hc
      rw [upd_other _ _ _ _ (by rintro rfl; exact hctx (Nat.le_refl _) hc)]; exact k.ctxU c hc
    · simpa using k.ccNd
    · simpa using k.ccDj
    · simp only [ret_ccs, ret_loc, ret_returned, ret_counter, setEv_ccs, setEv_loc, setEv_returned, setEv_counter]
      intro c h hh
      have := k.ccU c h hh
      refine ⟨?_, ?_, by omega⟩
      · rw [upd_other _ _ _ _ (by omega)]; exact this.1
      · simp only [List.mem_cons, not_or]; exact ⟨by omega, this.2.1⟩
  | enqueue j c ws blk hp hw hb hc =>
    refine ⟨?_, ?_, ?_, ?_, ?_, ?_, ?_, ?_⟩
    · have := k.giv; simp only [handedOut] at this ⊢; simp [this]
    · simpa using k.rnd
    · simpa using k.cnd
    · simp only [setC_evs, setEv_evs, List.nodup_cons]; exact ⟨hevs (Nat.le_refl _), k.end'⟩
    · simp only [setC_ctxs, setEv_ctxs, setC_loc, setEv_loc, holdCtx_ctxs, holdCtx_loc]
      intro c hc
      rw [upd_other _ _ _ _ (by rintro rfl; exact hctx (Nat.le_refl _) hc)]; exact k.ctxU c hc
    · simpa using k.ccNd
    · simpa using k.ccDj
    · simp only [setC_ccs, setC_loc, setC_returned, setC_counter, setEv_ccs, setEv_loc, setEv_returned, setEv_counter, holdCtx_ccs, holdCtx_loc, holdCtx_returned]
      intro c h hh
      have := k.ccU c h hh
      refine ⟨?_, this.2.1, by omega⟩
      rw [upd_other _ _ _ _ (by omega)]; exact this.1
  | enqueueRet j c h ws t ot seen hp hr ht hlt =>
    have hl := i.locC hp (h := h) rfl
    have hnr : h ∉ s.returned := fun hc => (i2.rt h hc).2.1 j hl
    have hkeep : ∀ x, s.loc x = .unborn → upd s.loc h (.queued c t) x = .unborn := by
      intro x hx; rw [upd_other _ _ _ _ (by rintro rfl; rw [hl] at hx; simp at hx)]; exact hx
    refine ⟨?_, ?_, ?_, ?_, ?_, ?_, ?_, ?_⟩
    · have := k.giv; simp only [handedOut] at this ⊢; simp [newHandle, this]
    · simp only [ret_returned, pushed_returned, List.nodup_cons]; exact ⟨hnr, k.rnd⟩
    · simpa using k.cnd
    · simpa using k.end'
    · simp only [ret_ctxs, pushed_ctxs, ret_loc, pushed_loc]
      intro c hc; exact hkeep c (k.ctxU c hc)
    · simpa using k.ccNd
    · simpa using k.ccDj
    · simp only [ret_ccs, pushed_ccs, ret_loc, pushed_loc, ret_returned, pushed_returned, ret_counter, pushed_counter]
      intro c x hx
      have := k.ccU c x hx
      refine ⟨hkeep x this.1, ?_, this.2.2⟩
      simp only [List.mem_cons, not_or]
      refine ⟨?_, this.2.1⟩
      rintro rfl; rw [hl] at this; simp at this
  | newCC c t q hn hp hh =>
    refine ⟨k.giv, k.rnd, k.cnd, k.end', k.ctxU, ?_, ?_, ?_⟩
    · intro c'
      by_cases hc : c' = c
      · subst hc; simp only [upd_same, List.nodup_cons]
        refine ⟨?_, k.ccNd c'⟩
        intro hm; have := (k.ccU c' _ hm).2.2; omega
      · simp only [upd_other _ _ _ _ hc]; exact k.ccNd c'
    · intro c1 c2 h h1 h2
      simp only at h1 h2
      have key : ∀ c', h ∈ upd s.ccs c (s.counter :: s.ccs c) c' → (h = s.counter ∧ c' = c) ∨ (h ≠ s.counter ∧ h ∈ s.ccs c') := by
        intro c' hm
        by_cases hc : c' = c
        · subst hc; simp at hm
          rcases hm with hm | hm
          · exact Or.inl ⟨hm, rfl⟩
          · right; refine ⟨?_, hm⟩; have := (k.ccU c' _ hm).2.2; omega
        · rw [upd_other _ _ _ _ hc] at hm
          right; refine ⟨?_, hm⟩; have := (k.ccU c' _ hm).2.2; omega
      rcases key c1 h1 with ⟨a, b⟩ | ⟨a, b⟩ <;> rcases key c2 h2 with ⟨a', b'⟩ | ⟨a', b'⟩
      · rw [b, b']
      · exact absurd a a'
      · exact absurd a' a
      · exact k.ccDj c1 c2 h b b'
    · intro c' h hm
      simp only at hm ⊢
      by_cases hx : h = s.counter
      · subst hx; exact ⟨i.fresh _ (Nat.le_refl _), hret (Nat.le_refl _), by omega⟩
      · have hm' : h ∈ s.ccs c' := by
          by_cases hc : c' = c
          · subst hc; simp [hx] at hm; exact hm
          · rw [upd_other _ _ _ _ hc] at hm; exact hm
        have := k.ccU c' h hm'
        exact ⟨this.1, this.2.1, by omega⟩
  | _ =>
    refine k.keep st ?_ ?_ ?_ ?_ ?_ ?_
    case refine_2 =>
      simp [handedOut, List.filterMap_cons]
    all_goals simp

theorem kinv {s : St} (h : Reachable s) : KInv s := reach_ind kinv_init (fun _ _ st k => kinv_step st k) h

/-- What was once taken out of a table does not come back. -/
def Gone (s s' : St) : Prop :=
  s.counter ≤ s'.counter ∧ (∀ h, h < s.counter → h ∉ s.evs → h ∉ s'.evs) ∧ (∀ h, h < s.counter → h ∉ s.ctxs → h ∉ s'.ctxs)

theorem gone_step {s s' : St} (st : Step s s') : Gone s s' := by
  obtain ⟨⟨i, i2, hi⟩, al', hub, tr, ln, lu⟩ := id st
  cases tr with
  | createCtx j ooo hp =>
    have hb : s.counter ≤ base s := by
      unfold base
      cases hi : s.inited with
      | false => simp [(i2.ini hi).1]
      | true => simp
    refine ⟨by simp [createCtx]; omega, by simp [createCtx], ?_⟩
    intro h hh hn; simp only [createCtx, ret_ctxs, List.mem_cons, not_or]; exact ⟨by omega, hn⟩
  | createUser j c hp hc => exact ⟨by simp, by intro h hh hn; simp [hn]; omega, by simp⟩
  | enqueue j c ws blk hp hw hb hc => exact ⟨by simp, by intro h hh hn; simp [hn]; omega, by simp⟩
  | newCC c t q hn hp hh => exact ⟨by simp, by simp, by simp⟩
  | _ =>
    refine ⟨by simp, ?_, ?_⟩ <;> intro h hh hn <;> simp <;> tauto

end Mcut.Api
