import Verif.Lemmas.ApiCb
/-! When callbacks run in the API model. -/
namespace Mcut.Api

/-- The completion notification of the event has been done. -/
def notified : Loc → Bool
  | .fin3 _ _ _ | .fin4 _ _ _ | .over _ _ _ | .uOver _ => true
  | _ => false

/-- The callback fields. -/
def Ev.cb (e : Ev) : Bool × Option Nat := (e.inv, e.fn)

theorem reapEv_cb (s : St) (h x : Nat) : ((reapEv s h).ev x).cb = (s.ev x).cb := by
  by_cases hx : x = h
  · subst hx
    unfold reapEv destroyEv
    simp only
    repeat' split
    all_goals simp [obsCb, Ev.cb]
  · rw [reapEv_evOther _ _ _ hx]

theorem dropEv_cb (s : St) (h : Nat) (a : Actor) (x : Nat) : ((dropEv s h a).ev x).cb = (s.ev x).cb := by
  unfold dropEv
  rw [reapEv_cb]
  by_cases hx : x = h
  · subst hx; simp [Ev.cb]
  · simp [upd_other _ _ _ _ hx]

theorem removeEv_cb (s : St) (h x : Nat) : ((removeEv s h).ev x).cb = (s.ev x).cb := by
  unfold removeEv; rw [reapEv_cb]

theorem holdEv_cb (s : St) (h : Nat) (a : Actor) (x : Nat) : ((holdEv s h a).ev x).cb = (s.ev x).cb := by
  by_cases hx : x = h
  · subst hx; simp [holdEv, Ev.cb]
  · simp [holdEv, upd_other _ _ _ _ hx]

theorem setEv_cb (s : St) (h : Nat) (e : Ev) (l : Loc) (x : Nat) :
    ((setEv s h e l).ev x).cb = if x = h then e.cb else (s.ev x).cb := by
  by_cases hx : x = h
  · subst hx; simp [setEv]
  · simp [setEv, upd_other _ _ _ _ hx, hx]

theorem setEv_cbSame (s : St) (h : Nat) (e : Ev) (l : Loc) (he : e.cb = (s.ev h).cb) (x : Nat) :
    ((setEv s h e l).ev x).cb = (s.ev x).cb := by
  rw [setEv_cb]; split
  · rename_i hx; rw [hx, he]
  · rfl

/-- Nothing is pending. -/
def calm (p : Bool × Option Nat) : Prop := p.1 = true ∨ p.2 = none

theorem notifyCb_cb (s : St) (h : Nat) (l : Loc) (x : Nat) :
    (x = h → calm ((notifyCb s h l).ev x).cb) ∧ (x ≠ h → ((notifyCb s h l).ev x).cb = (s.ev x).cb) := by
  unfold notifyCb
  simp only
  split
  · rename_i k hk
    split
    · rename_i hi
      simp only [obsCb, setEv_cb]
      by_cases hx : x = h <;> simp [hx, calm, Ev.cb]
    · rename_i hi
      simp only [setEv_cb]
      by_cases hx : x = h
      · subst hx; simpa [calm, Ev.cb] using Or.inl hi
      · simp [hx]
  · rename_i hk
    simp only [setEv_cb]
    by_cases hx : x = h <;> simp [hx, calm, Ev.cb, hk]

theorem setCb_cb (s : St) (h x : Nat) :
    (x = h → (s.ev h).fin = true → calm ((setCb s h).ev x).cb) ∧ (x ≠ h → ((setCb s h).ev x).cb = (s.ev x).cb) := by
  unfold setCb
  simp only
  split
  · simp only [obsCb, setEv_cb]
    by_cases hx : x = h <;> simp [hx, calm, Ev.cb]
  · rename_i hf
    simp only [obsCb, setEv_cb]
    by_cases hx : x = h <;> simp [hx, calm, Ev.cb]
    simpa using hf

/-- Calls other than by the destructor. -/
def CbObs.early : CbObs → Option (Nat × Nat)
  | .call h k v => if v = .destructor then none else some (h, k)
  | .reg _ _ => none

theorem reapEv_early (s : St) (h : Nat) : (reapEv s h).cbs.filterMap CbObs.early = s.cbs.filterMap CbObs.early := by
  unfold reapEv destroyEv
  simp only
  repeat' split
  all_goals simp [obsCb, CbObs.early]

theorem dropEv_early (s : St) (h : Nat) (a : Actor) : (dropEv s h a).cbs.filterMap CbObs.early = s.cbs.filterMap CbObs.early := by
  unfold dropEv; rw [reapEv_early]

theorem removeEv_early (s : St) (h : Nat) : (removeEv s h).cbs.filterMap CbObs.early = s.cbs.filterMap CbObs.early := by
  unfold removeEv; rw [reapEv_early]

theorem notifyCb_early (s : St) (h : Nat) (l : Loc) (x : Nat × Nat) (hx : x ∈ (notifyCb s h l).cbs.filterMap CbObs.early) :
    x.1 = h ∨ x ∈ s.cbs.filterMap CbObs.early := by
  unfold notifyCb at hx
  simp only at hx
  split at hx
  · split at hx
    · simp [obsCb, setEv, CbObs.early] at hx
      rcases hx with rfl | hx
      · exact Or.inl rfl
      · right; simpa [CbObs.early] using hx
    · exact Or.inr hx
  · exact Or.inr hx

theorem setCb_early (s : St) (h : Nat) (x : Nat × Nat) (hx : x ∈ (setCb s h).cbs.filterMap CbObs.early) :
    (x.1 = h ∧ (s.ev h).fin = true) ∨ x ∈ s.cbs.filterMap CbObs.early := by
  unfold setCb at hx
  simp only at hx
  split at hx
  · rename_i hf
    simp [obsCb, setEv, CbObs.early] at hx
    rcases hx with rfl | hx
    · exact Or.inl ⟨rfl, hf⟩
    · right; simpa [CbObs.early] using hx
  · right; simpa [obsCb, setEv, CbObs.early] using hx

/-- Timing invariant of callbacks. -/
structure NInv (s : St) : Prop where
  inv : ∀ h, notified (s.loc h) = true → calm (s.ev h).cb
  fin : ∀ x ∈ s.cbs.filterMap CbObs.early, (s.ev x.1).fin = true

theorem fin_of_loc {s : St} (i : Inv s) (h : Nat) : (s.ev h).fin = (expect (s.loc h)).2.2.1 := by
  have := i.fields h; simp only [core] at this; rw [← this]

theorem Step.fin {s s' : St} (st : Step s s') {h : Nat} (hf : (s.ev h).fin = true) : (s'.ev h).fin = true := by
  rw [fin_of_loc st.all.i] at hf
  rw [fin_of_loc st.all'.i]
  rcases st.ln h with l | l
  · rw [l]; exact hf
  · generalize s'.loc h = l' at l; generalize s.loc h = l0 at l hf
    cases l <;> simp [expect] at hf ⊢

theorem notified_fin {l : Loc} (h : notified l = true) : (expect l).2.2.1 = true := by
  cases l <;> simp [notified, expect] at h ⊢

theorem notified_next {l l' : Loc} (n : Next l l') (h : notified l' = true) :
    notified l = true ∨ (∃ c t r, l = .fin2 c t r) ∨ ∃ i r, l = .u5 i r := by
  cases n <;> simp [notified] at h ⊢

theorem ninv_step {s s' : St} (st : Step s s') (k : NInv s) : NInv s' := by
  obtain ⟨⟨i, i2, hi⟩, al', hub, tr, ln, lu⟩ := id st
  have keep : (∀ x, notified (s.loc x) = true → (s'.ev x).cb = (s.ev x).cb) → (∀ x, notified (s'.loc x) = true → notified (s.loc x) = true) →
      (∀ x ∈ s'.cbs.filterMap CbObs.early, x ∈ s.cbs.filterMap CbObs.early) → NInv s' := by
    intro a b c
    refine ⟨?_, ?_⟩
    · intro h hn; rw [a h (b h hn)]; exact k.inv h (b h hn)
    · intro x hx; exact st.fin (k.fin x (c x hx))
  have born : ∀ l e y, s.loc y = .unborn → ∀ x, notified (s.loc x) = true → ((setEv s y e l).ev x).cb = (s.ev x).cb := by
    intro l e y hy x hx
    rw [setEv_cb, if_neg]; rintro rfl; rw [hy] at hx; simp [notified] at hx
  have nt : ∀ y l, s'.loc = upd s.loc y l → (notified l = false ∨ notified (s.loc y) = true) → ∀ x, notified (s'.loc x) = true → notified (s.loc x) = true := by
    intro y l h1 h2 x hx
    rw [h1] at hx
    by_cases hxy : x = y
    · subst hxy; rw [upd_same] at hx
      rcases h2 with h2 | h2
      · rw [h2] at hx; simp at hx
      · exact h2
    · rwa [upd_other _ _ _ _ hxy] at hx
  cases tr with
  | createCtx j ooo hp => exact keep (by intro x _; rfl) (by intro x h; exact h) (by intro x h; exact h)
  | createUser j c hp hc =>
    exact keep (by intro x h; exact born .uNew (newEv true []) _ (i.fresh _ (Nat.le_refl _)) x h) (nt s.counter .uNew (by simp) (Or.inl rfl)) (by intro x h; exact h)
  | enqueue j c ws blk hp hw hb hc =>
    exact keep (by intro x h; exact born (.alloc j) (newEv false [.cl j]) _ (i.fresh _ (Nat.le_refl _)) x h) (nt s.counter (.alloc j) (by simp) (Or.inl rfl)) (by intro x h; exact h)
  | sig5 j h r hp =>
    have hl := i.locC hp (h := h) rfl
    refine ⟨?_, ?_⟩
    · intro x hx
      simp only [ret_ev, dropEv_cb]
      by_cases hxh : x = h
      · exact (notifyCb_cb s h (.uOver r) x).1 hxh
      · rw [(notifyCb_cb s h (.uOver r) x).2 hxh]
        simp [upd_other _ _ _ _ hxh] at hx; exact k.inv x hx
    · intro x hx
      simp only [ret_cbs, dropEv_early] at hx
      rcases notifyCb_early s h _ x hx with e | e
      · rw [e]; apply st.fin; rw [fin_of_loc i, hl]; rfl
      · exact st.fin (k.fin x e)
  | fin2 c t q r hn hp =>
    have hl := i.locM hp (h := q.ev) rfl
    refine ⟨?_, ?_⟩
    · intro x hx
      simp only [setM_ev]
      by_cases hxh : x = q.ev
      · exact (notifyCb_cb s q.ev _ x).1 hxh
      · rw [(notifyCb_cb s q.ev _ x).2 hxh]
        simp [upd_other _ _ _ _ hxh] at hx; exact k.inv x hx
    · intro x hx
      simp only [setM_cbs] at hx
      rcases notifyCb_early s _ _ x hx with e | e
      · rw [e]; apply st.fin; rw [fin_of_loc i, hl]; rfl
      · exact st.fin (k.fin x e)
  | setCb2 j h hp =>
    refine ⟨?_, ?_⟩
    · intro x hx
      simp only [ret_ev, dropEv_cb]
      simp at hx
      by_cases hxh : x = h
      · refine (setCb_cb s h x).1 hxh ?_
        rw [fin_of_loc i, ← hxh]; exact notified_fin hx
      · rw [(setCb_cb s h x).2 hxh]; exact k.inv x hx
    · intro x hx
      simp only [ret_cbs, dropEv_early] at hx
      rcases setCb_early s h x hx with ⟨e, e'⟩ | e
      · rw [e]; exact st.fin e'
      · exact st.fin (k.fin x e)
  | fin3 c t q r hn hp =>
    have hl := i.locM hp (h := q.ev) rfl
    refine keep ?_ (nt q.ev (.fin4 c t r) (by simp) (Or.inr (by rw [hl]; rfl))) (by simp only [setM_cbs, dropEv_early]; intro x h; exact h)
    intro x _; simp only [setM_ev, dropEv_cb]; apply setEv_cbSame; rfl
  | fin4 c t q r hn hp =>
    have hl := i.locM hp (h := q.ev) rfl
    refine keep ?_ (nt q.ev (.over c t r) (by simp) (Or.inr (by rw [hl]; rfl))) (by intro x h; exact h)
    intro x _; simp only [setM_ev]; apply setEv_cbSame; rfl
  | enqueueRet j c h ws t ot seen hp hr ht hlt =>
    refine keep ?_ (nt h (.queued c t) (by simp) (Or.inl rfl)) ?_
    · intro x _; simp only [ret_ev, pushed, dropCtx_ev, dropEv_cb, obs_ev]; apply setEv_cbSame; rfl
    · simp only [ret_cbs, pushed, dropCtx_cbs, dropEv_early, obs_cbs, setEv_cbs]; intro x h; exact h
  | enqueueBlk j c h ws t ot seen hp hr ht hlt =>
    refine keep ?_ (nt h (.queued c t) (by simp) (Or.inl rfl)) ?_
    · intro x _; simp only [setC_ev, pushed, dropCtx_ev, dropEv_cb, obs_ev]; apply setEv_cbSame; rfl
    · simp only [setC_cbs, pushed, dropCtx_cbs, dropEv_early, obs_cbs, setEv_cbs]; intro x h; exact h
  | _ =>
    refine keep ?_ ?_ ?_
    · intro x _
      first
        | rfl
        | (simp only [setM_ev, setC_ev, ret_ev, obs_ev, setWhy_ev, dropCtx_ev, holdCtx_ev, bad_ev, dropTask, dropEv_cb, removeEv_cb, holdEv_cb]; done)
        | (simp only [setM_ev, setC_ev, ret_ev, obs_ev, setWhy_ev, dropCtx_ev, holdCtx_ev, bad_ev, dropTask, dropEv_cb, removeEv_cb, holdEv_cb]
           first
             | (apply setEv_cbSame; rfl)
             | (refine (setEv_cbSame _ _ _ _ ?_ x).trans ?_
                · first | rfl | simp only [dropCtx_ev]
                · first | simp only [dropCtx_ev] | exact dropEv_cb _ _ _ _ | exact holdEv_cb _ _ _ _ | rfl))
    · first
        | (intro x hx; simpa using hx)
        | (refine nt _ _ (by simp; rfl) (Or.inl rfl))
    · intro x hx
      simpa only [setM_cbs, setC_cbs, ret_cbs, obs_cbs, setWhy_cbs, dropCtx_cbs, holdCtx_cbs, bad_cbs, dropTask, dropEv_early, removeEv_early, holdEv_cbs, setEv_cbs] using hx

theorem ninv {s : St} (h : Reachable s) : NInv s :=
  reach_ind ⟨by simp [init, notified], by simp [init]⟩ (fun _ _ st k => ninv_step st k) h

end Mcut.Api
