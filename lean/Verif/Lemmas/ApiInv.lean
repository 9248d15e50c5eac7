import Verif.Lemmas.ApiTr
/-! Further invariants of the API model: handles, submissions, reachability. -/
namespace Mcut.Api

/-- Handles and submissions. -/
structure Inv2 (s : St) : Prop where
  ini : s.inited = false → s.counter = 0 ∧ s.ctxs = [] ∧ ∀ c, s.nq c = 0
  cnt : s.inited = true → 0xDECAF < s.counter
  nodup : s.issued.Nodup
  iss : ∀ h ∈ s.issued, 0xDECAF ≤ h ∧ h < s.counter
  born : ∀ h, s.loc h ≠ .unborn → h ∈ s.issued
  rt : ∀ h ∈ s.returned, h ∈ s.issued ∧ (∀ i, s.loc h ≠ .alloc i) ∧ s.loc h ≠ .leaked
  so : SubmitOk s
  wok : ∀ h, ∀ w ∈ s.waits h, okArg s w
  ctxIss : ∀ c ∈ s.ctxs, c ∈ s.returned
  ccIss : ∀ c, ∀ h ∈ s.ccs c, h ∈ s.issued

/-- What the phase-changing part of a step can do to one event. -/
theorem Eff.locNext {s s' : St} {a : Actor} (e : Eff s s' a) (iv : Inv s) (h : Nat) :
    s'.loc h = s.loc h ∨ Next (s.loc h) (s'.loc h) := by
  cases e with
  | quiet loc => rw [loc]; exact Or.inl rfl
  | move x l loc _ _ _ _ _ _ _ _ _ _ _ next _ _ =>
    by_cases hx : h = x
    · subst hx; rw [loc, upd_same]; exact Or.inr next
    · rw [loc, upd_other _ _ _ _ hx]; exact Or.inl rfl
  | born x l hh loc _ _ _ _ _ _ _ _ _ next _ =>
    by_cases hx : h = x
    · subst hx; rw [loc, upd_same, iv.fresh h (by omega)]; exact Or.inr next
    · rw [loc, upd_other _ _ _ _ hx]; exact Or.inl rfl
  | push x c t loc _ _ _ _ _ _ _ _ al _ =>
    by_cases hx : h = x
    · subst hx; obtain ⟨i, hi⟩ := al; rw [loc, upd_same, hi]; exact Or.inr (.queue i c t)
    · rw [loc, upd_other _ _ _ _ hx]; exact Or.inl rfl
  | pop k l c t rest q loc _ _ _ _ _ _ _ _ _ next _ _ =>
    by_cases hx : h = k.ev
    · subst hx; rw [loc, upd_same, (iv.q c t k (by rw [q]; simp)).1]; exact Or.inr next
    · rw [loc, upd_other _ _ _ _ hx]; exact Or.inl rfl

/-- No phase begins without a fresh handle. -/
theorem Eff.locUnborn {s s' : St} {a : Actor} (e : Eff s s' a) (iv : Inv s) (hc : s'.counter = s.counter) (h : Nat)
    (hu : s.loc h = .unborn) : s'.loc h = .unborn := by
  cases e with
  | quiet loc => rw [loc]; exact hu
  | move x l loc _ _ _ _ _ _ _ _ _ _ nu next _ _ =>
    by_cases hx : h = x
    · subst hx; exact absurd hu nu
    · rw [loc, upd_other _ _ _ _ hx]; exact hu
  | born x l hh loc _ _ cnt => omega
  | push x c t loc _ _ _ _ _ _ _ _ al _ =>
    by_cases hx : h = x
    · subst hx; obtain ⟨i, hi⟩ := al; rw [hi] at hu; simp at hu
    · rw [loc, upd_other _ _ _ _ hx]; exact hu
  | pop k l c t rest q loc _ _ _ _ _ _ _ _ _ next _ _ =>
    by_cases hx : h = k.ev
    · subst hx; rw [(iv.q c t k (by rw [q]; simp)).1] at hu; simp at hu
    · rw [loc, upd_other _ _ _ _ hx]; exact hu

theorem inv_init : Inv init := by
  refine ⟨?_, ?_, ?_, ?_, ?_, ?_, ?_, ?_⟩
  · intro h; rfl
  · intro a h l e; cases a <;> simp [expA, init, expM, expC] at e
  · intro c t k hk; simp [init] at hk
  · intro c t; simp [init]
  · intro h _; rfl
  · intro h hh; simp [init] at hh
  · intro h a ho; simp [init, owner] at ho
  · intro h; rfl

theorem inv2_init : Inv2 init := by
  refine ⟨?_, ?_, ?_, ?_, ?_, ?_, ?_, ?_, ?_, ?_⟩ <;> simp [init, SubmitOk]

theorem Inv2.alive {s : St} (i2 : Inv2 s) {c : Nat} (hc : c ∈ s.ctxs) : 0xDECAF < s.counter := by
  cases hi : s.inited with
  | false => rw [(i2.ini hi).2.1] at hc; simp at hc
  | true => exact i2.cnt hi

theorem Inv2.mgrAlive {s : St} (i2 : Inv2 s) {c t : Nat} (hc : t < s.nq c) : 0xDECAF < s.counter := by
  cases hi : s.inited with
  | false => rw [(i2.ini hi).2.2] at hc; simp at hc
  | true => exact i2.cnt hi

/-- Steps that hand out no handle. -/
theorem Inv2.keep {s s' : St} (i2 : Inv2 s)
    (ln : ∀ h, s'.loc h = s.loc h ∨ Next (s.loc h) (s'.loc h))
    (nu : ∀ h, s.loc h = .unborn → s'.loc h = .unborn)
    (h1 : s'.counter = s.counter) (h2 : s'.inited = s.inited)
    (h3 : ∀ c ∈ s'.ctxs, c ∈ s.ctxs) (h4 : s'.nq = s.nq) (h5 : s'.issued = s.issued) (h6 : s'.returned = s.returned)
    (h7 : s'.waits = s.waits) (h8 : s'.ccs = s.ccs)
    (h9 : ∀ i c h ws blk, s'.cl i = .submit c h ws blk → s.cl i = .submit c h ws blk) : Inv2 s' := by
  refine ⟨?_, ?_, ?_, ?_, ?_, ?_, ?_, ?_, ?_, ?_⟩
  · intro hi; rw [h2] at hi
    obtain ⟨a, b, c⟩ := i2.ini hi
    refine ⟨by rw [h1]; exact a, ?_, by rw [h4]; exact c⟩
    apply List.eq_nil_iff_forall_not_mem.2
    intro x hx; have := h3 x hx; rw [b] at this; simp at this
  · intro hi; rw [h2] at hi; rw [h1]; exact i2.cnt hi
  · rw [h5]; exact i2.nodup
  · rw [h5, h1]; exact i2.iss
  · intro h hh; rw [h5]; apply i2.born; intro hu; exact hh (nu h hu)
  · intro h hh; rw [h6] at hh; rw [h5]
    obtain ⟨a, b, c⟩ := i2.rt h hh
    refine ⟨a, ?_, ?_⟩
    · intro i hi
      rcases ln h with l | l
      · rw [l] at hi; exact b i hi
      · rw [hi] at l; generalize hl : s.loc h = l0 at l; cases l
        rw [nu h hl] at hi; simp at hi
    · intro hi
      rcases ln h with l | l
      · rw [l] at hi; exact c hi
      · rw [hi] at l; generalize hl : s.loc h = l0 at l; cases l; exact b _ hl
  · intro i c h ws blk hp; rw [h7]; exact i2.so i c h ws blk (h9 i c h ws blk hp)
  · intro h w hw; rw [h7] at hw; rcases i2.wok h w hw with x | x
    · left; rw [h6]; exact x
    · right; exact x
  · intro c hc; rw [h6]; exact i2.ctxIss c (h3 c hc)
  · intro c h hh; rw [h8] at hh; rw [h5]; exact i2.ccIss c h hh

theorem upd_cases {α : Type} {f : Nat → α} {i j : Nat} {v w : α} (h : upd f i v j = w) : (j = i ∧ v = w) ∨ (j ≠ i ∧ f j = w) := by
  by_cases hj : j = i
  · subst hj; left; simpa using h
  · right; rw [upd_other _ _ _ _ hj] at h; exact ⟨hj, h⟩

theorem tr_inv2 {s s' : St} (i : Inv s) (i2 : Inv2 s) (ln : ∀ h, s'.loc h = s.loc h ∨ Next (s.loc h) (s'.loc h))
    (lu : s'.counter = s.counter → ∀ h, s.loc h = .unborn → s'.loc h = .unborn) (tr : Tr s s') : Inv2 s' := by
  have hfr : ∀ {x}, s.counter ≤ x → x ∉ s.issued := by
    intro x hx hc; have := i2.iss x hc; omega
  have hret : ∀ {x}, s.counter ≤ x → x ∉ s.returned := by
    intro x hx hc; exact hfr hx (i2.rt x hc).1
  have hok : ∀ {s' : St} (w : Nat), (∀ x ∈ s.returned, x ∈ s'.returned) → okArg s w → okArg s' w := by
    intro s' w h ho; rcases ho with h1 | h1
    · exact Or.inl (h _ h1)
    · exact Or.inr h1
  cases tr with
  | createCtx j ooo hp =>
    have hb : s.counter ≤ base s ∧ 0xDECAF ≤ base s := by
      unfold base
      cases hi : s.inited with
      | false => simp [(i2.ini hi).1]
      | true => have := i2.cnt hi; simp; omega
    refine ⟨?_, ?_, ?_, ?_, ?_, ?_, ?_, ?_, ?_, ?_⟩
    · simp [createCtx]
    · simp [createCtx]; omega
    · simp [createCtx]; exact ⟨hfr hb.1, i2.nodup⟩
    · simp only [createCtx, ret_issued, ret_counter, List.mem_cons]
      rintro h (rfl | hh)
      · omega
      · have := i2.iss h hh; omega
    · intro h hh; simp [createCtx] at hh ⊢; right; exact i2.born h hh
    · simp only [createCtx, ret_returned, ret_issued, ret_loc, List.mem_cons]
      rintro h (rfl | hh)
      · rw [i.fresh _ hb.1]; simp
      · have := i2.rt h hh; exact ⟨Or.inr this.1, this.2⟩
    · intro k c h ws blk hk
      simp only [createCtx, ret_cl] at hk
      simp only [createCtx, ret_waits]
      rcases upd_cases hk with ⟨_, hk⟩ | ⟨_, hk⟩
      · simp at hk
      · exact i2.so k c h ws blk hk
    · intro h w hw
      simp only [createCtx, ret_waits] at hw
      exact hok w (by simp [createCtx]; tauto) (i2.wok h w hw)
    · simp only [createCtx, ret_ctxs, ret_returned, List.mem_cons]
      rintro c (rfl | hc)
      · simp
      · right; exact i2.ctxIss c hc
    · intro c h hh; simp [createCtx] at hh ⊢; right; exact i2.ccIss c h hh
  | createUser j c hp hc =>
    have h0 := i2.alive hc
    refine ⟨?_, ?_, ?_, ?_, ?_, ?_, ?_, ?_, ?_, ?_⟩
    · intro hi; simp at hi; rw [(i2.ini hi).2.1] at hc; simp at hc
    · intro _; simp; omega
    · simp; exact ⟨hfr (Nat.le_refl _), i2.nodup⟩
    · simp only [ret_issued, setEv_issued, ret_counter, setEv_counter, List.mem_cons]
      rintro h (rfl | hh)
      · omega
      · have := i2.iss h hh; omega
    · intro h hh; simp at hh ⊢
      by_cases hx : h = s.counter
      · left; exact hx
      · rw [upd_other _ _ _ _ hx] at hh; right; exact i2.born h hh
    · simp only [ret_returned, setEv_returned, ret_issued, setEv_issued, ret_loc, setEv_loc, List.mem_cons]
      rintro h (rfl | hh)
      · simp
      · have := i2.rt h hh
        have hx : h ≠ s.counter := by rintro rfl; exact hret (Nat.le_refl _) hh
        rw [upd_other _ _ _ _ hx]
        exact ⟨Or.inr this.1, this.2⟩
    · intro k c h ws blk hk
      simp only [ret_cl, setEv_cl] at hk
      simp only [ret_waits, setEv_waits]
      rcases upd_cases hk with ⟨_, hk⟩ | ⟨_, hk⟩
      · simp at hk
      · exact i2.so k c h ws blk hk
    · intro h w hw
      simp only [ret_waits, setEv_waits] at hw
      exact hok w (by simp; tauto) (i2.wok h w hw)
    · simp only [ret_ctxs, setEv_ctxs, ret_returned, setEv_returned, List.mem_cons]
      intro c hc; right; exact i2.ctxIss c hc
    · intro c h hh; simp at hh ⊢; right; exact i2.ccIss c h hh
  | enqueue j c ws blk hp hw hb hc =>
    have h0 := i2.alive hc
    refine ⟨?_, ?_, ?_, ?_, ?_, ?_, ?_, ?_, ?_, ?_⟩
    · intro hi; simp at hi; rw [(i2.ini hi).2.1] at hc; simp at hc
    · intro _; simp; omega
    · simp; exact ⟨hfr (Nat.le_refl _), i2.nodup⟩
    · simp only [setC_issued, setEv_issued, setC_counter, setEv_counter, List.mem_cons]
      rintro h (rfl | hh)
      · omega
      · have := i2.iss h hh; omega
    · intro h hh; simp at hh ⊢
      by_cases hx : h = s.counter
      · left; exact hx
      · rw [upd_other _ _ _ _ hx] at hh; right; exact i2.born h hh
    · simp only [setC_returned, setEv_returned, setC_issued, setEv_issued, setC_loc, setEv_loc, List.mem_cons, holdCtx_returned, holdCtx_loc]
      rintro h hh
      have := i2.rt h hh
      have hx : h ≠ s.counter := by rintro rfl; exact hret (Nat.le_refl _) hh
      rw [upd_other _ _ _ _ hx]
      exact ⟨Or.inr this.1, this.2⟩
    · intro k c' h ws' blk' hk
      simp only [setC_cl, setEv_cl, holdCtx_cl] at hk
      simp only [setC_waits, setEv_waits]
      rcases upd_cases hk with ⟨_, hk⟩ | ⟨_, hk⟩
      · simp at hk; obtain ⟨rfl, rfl, rfl, rfl⟩ := hk; simp
      · have hx : h ≠ s.counter := by
          rintro rfl
          have := i.locC hk (h := s.counter) rfl
          rw [i.fresh _ (Nat.le_refl _)] at this; simp at this
        rw [upd_other _ _ _ _ hx]
        exact i2.so k c' h ws' blk' hk
    · intro h w hw'
      simp only [setC_waits, setEv_waits] at hw'
      by_cases hx : h = s.counter
      · subst hx; rw [upd_same] at hw'; exact hok w (by simp) (hw w hw')
      · rw [upd_other _ _ _ _ hx] at hw'; exact hok w (by simp) (i2.wok h w hw')
    · simp only [setC_ctxs, setEv_ctxs, setC_returned, setEv_returned, holdCtx_ctxs, holdCtx_returned]
      exact i2.ctxIss
    · intro c h hh; simp at hh ⊢; right; exact i2.ccIss c h hh
  | enqueueRet j c h ws t ot seen hp hr ht hlt =>
    have hl := i.locC hp (h := h) rfl
    refine ⟨?_, ?_, ?_, ?_, ?_, ?_, ?_, ?_, ?_, ?_⟩
    · intro hi; simp at hi ⊢; exact i2.ini hi
    · intro hi; simp at hi ⊢; exact i2.cnt hi
    · simp; exact i2.nodup
    · simpa using i2.iss
    · intro x hx; simp at hx ⊢
      by_cases hxh : x = h
      · subst hxh; apply i2.born; rw [hl]; simp
      · rw [upd_other _ _ _ _ hxh] at hx; exact i2.born x hx
    · simp only [ret_returned, ret_issued, ret_loc, pushed_returned, pushed_issued, pushed_loc, List.mem_cons]
      rintro x (rfl | hx)
      · simp; apply i2.born; rw [hl]; simp
      · have := i2.rt x hx
        have hne : x ≠ h := by rintro rfl; exact this.2.1 j hl
        rw [upd_other _ _ _ _ hne]; exact this
    · intro k c' h' ws' blk' hk
      simp only [ret_cl, pushed_cl] at hk
      simp only [ret_waits, pushed_waits]
      rcases upd_cases hk with ⟨_, hk⟩ | ⟨_, hk⟩
      · simp at hk
      · exact i2.so k c' h' ws' blk' hk
    · intro x w hw; simp only [ret_waits, pushed_waits] at hw
      exact hok w (by simp; tauto) (i2.wok x w hw)
    · simp only [ret_ctxs, pushed_ctxs, ret_returned, pushed_returned, List.mem_cons]
      intro c hc; right; exact i2.ctxIss c hc
    · intro c h hh; simp at hh ⊢; exact i2.ccIss c h hh
  | newCC c t k hn hp hh =>
    have h0 := i2.mgrAlive hn
    refine ⟨?_, ?_, ?_, ?_, ?_, ?_, ?_, ?_, ?_, ?_⟩
    · intro hi; simp at hi; rw [(i2.ini hi).2.2] at hn; simp at hn
    · intro _; simp; omega
    · simp; exact ⟨hfr (Nat.le_refl _), i2.nodup⟩
    · simp only [List.mem_cons]
      rintro h (rfl | hh)
      · omega
      · have := i2.iss h hh; omega
    · intro h hh; simp; right; exact i2.born h hh
    · intro h hh; have := i2.rt h hh; exact ⟨by simp [this.1], this.2⟩
    · exact i2.so
    · exact i2.wok
    · exact i2.ctxIss
    · intro c' h hh
      simp only at hh
      by_cases hc : c' = c
      · subst hc; simp at hh; rcases hh with rfl | hh
        · simp
        · simp; right; exact i2.ccIss c' h hh
      · rw [upd_other _ _ _ _ hc] at hh; simp; right; exact i2.ccIss c' h hh
  | _ =>
    refine i2.keep ln (lu (by simp)) ?_ ?_ ?_ ?_ ?_ ?_ ?_ ?_ ?_
    case refine_9 =>
      intro j c' h' ws' blk' hk
      simp only [reapEv_cl, dropEv_cl, removeEv_cl, notifyCb_cl, setCb_cl, dropCtx_cl, setEv_cl, obs_cl, obsCb_cl, setWhy_cl,
        setM_cl, setC_cl, ret_cl, bad_cl, holdEv_cl, holdCtx_cl, pushed_cl, dropTask_cl] at hk
      first
        | exact hk
        | (rcases upd_cases hk with ⟨_, hk⟩ | ⟨_, hk⟩
           · simp at hk
           · exact hk)
    all_goals simp
    all_goals tauto

theorem reachable_inv {s : St} (h : Reachable s) : Inv s ∧ Inv2 s := by
  refine Reach.inv (P := fun s => Inv s ∧ Inv2 s) ?_ ⟨inv_init, inv2_init⟩ h
  rintro s a s' ⟨i, i2⟩ hs
  have hc : s.inited = true ∨ s.counter = 0 := by
    cases hi : s.inited with
    | true => exact Or.inl rfl
    | false => exact Or.inr (i2.ini hi).1
  obtain ⟨b, e⟩ := step_eff s s' a i i2.so hc hs
  exact ⟨e.inv i, tr_inv2 i i2 (e.locNext i) (e.locUnborn i) (step_tr s s' a hs)⟩

end Mcut.Api
