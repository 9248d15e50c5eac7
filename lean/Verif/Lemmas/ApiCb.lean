import Verif.Lemmas.ApiAll
/-! Callback bookkeeping in the API model. -/
namespace Mcut.Api

/-- The registration an observation calls. -/
def CbObs.callOf : CbObs → Option Nat
  | .call _ k _ => some k
  | .reg _ _ => none

/-- Callback invariant. -/
structure CInv (s : St) : Prop where
  rlt : ∀ h k, CbObs.reg h k ∈ s.cbs → k < s.regs
  runiq : ∀ h h' k, CbObs.reg h k ∈ s.cbs → CbObs.reg h' k ∈ s.cbs → h = h'
  cr : ∀ h k v, CbObs.call h k v ∈ s.cbs → CbObs.reg h k ∈ s.cbs
  cnd : (s.cbs.filterMap CbObs.callOf).Nodup
  fnReg : ∀ h k, (s.ev h).fn = some k → CbObs.reg h k ∈ s.cbs
  last : ∀ h k', CbObs.reg h k' ∈ s.cbs → ∃ k, (s.ev h).fn = some k ∧ k' ≤ k
  pend : ∀ h k, (s.ev h).fn = some k → (s.ev h).inv = false → (s.ev h).dead = false → ∀ v, CbObs.call h k v ∉ s.cbs
  done : ∀ h k, (s.ev h).fn = some k → (s.ev h).inv = true → ∃ v, CbObs.call h k v ∈ s.cbs
  destr : ∀ h k, CbObs.call h k .destructor ∈ s.cbs → (s.ev h).dead = true

theorem CInv.congr {s s' : St} (i : CInv s) (hf : ∀ x, (s'.ev x).fn = (s.ev x).fn) (hv : ∀ x, (s'.ev x).inv = (s.ev x).inv)
    (hd : ∀ x, (s.ev x).dead = true → (s'.ev x).dead = true) (hc : s'.cbs = s.cbs) (hr : s'.regs = s.regs) : CInv s' := by
  have hd' : ∀ x, (s'.ev x).dead = false → (s.ev x).dead = false := by
    intro x h
    cases h2 : (s.ev x).dead with
    | false => rfl
    | true => rw [hd x h2] at h; simp at h
  refine ⟨?_, ?_, ?_, ?_, ?_, ?_, ?_, ?_, ?_⟩
  · rw [hc, hr]; exact i.rlt
  · rw [hc]; exact i.runiq
  · rw [hc]; exact i.cr
  · rw [hc]; exact i.cnd
  · intro h k; rw [hc, hf]; exact i.fnReg h k
  · intro h k; rw [hc, hf]; exact i.last h k
  · intro h k; rw [hc, hf, hv]; intro a b c; exact i.pend h k a b (hd' h c)
  · intro h k; rw [hc, hf, hv]; exact i.done h k
  · intro h k; rw [hc]; intro a; exact hd h (i.destr h k a)

theorem cinv_setC {s : St} (i : CInv s) (j : Nat) (p : CPc) : CInv (setC s j p) :=
  i.congr (fun _ => rfl) (fun _ => rfl) (fun _ h => h) rfl rfl

theorem cinv_setM {s : St} (i : CInv s) (c t : Nat) (p : MPc) : CInv (setM s c t p) :=
  i.congr (fun _ => rfl) (fun _ => rfl) (fun _ h => h) rfl rfl

theorem cinv_ret {s : St} (i : CInv s) (j : Nat) (c : Call) (r : Int) : CInv (ret s j c r) :=
  i.congr (fun _ => rfl) (fun _ => rfl) (fun _ h => h) rfl rfl

theorem cinv_obs {s : St} (i : CInv s) (o : Obs) : CInv (obs s o) :=
  i.congr (fun _ => rfl) (fun _ => rfl) (fun _ h => h) rfl rfl

theorem cinv_setWhy {s : St} (i : CInv s) (h : Nat) (w : Why) : CInv (setWhy s h w) :=
  i.congr (fun _ => rfl) (fun _ => rfl) (fun _ h => h) rfl rfl

theorem cinv_bad {s : St} (i : CInv s) : CInv (bad s) :=
  i.congr (fun _ => rfl) (fun _ => rfl) (fun _ h => h) rfl rfl

theorem cinv_holdCtx {s : St} (i : CInv s) (c : Nat) (a : Actor) : CInv (holdCtx s c a) :=
  i.congr (fun _ => rfl) (fun _ => rfl) (fun _ h => h) rfl rfl

theorem cinv_dropCtx {s : St} (i : CInv s) (c : Nat) (a : Actor) : CInv (dropCtx s c a) :=
  i.congr (by simp) (by simp) (by simp) (by simp) (by simp)

theorem cinv_holdEv {s : St} (i : CInv s) (h : Nat) (a : Actor) : CInv (holdEv s h a) := by
  refine i.congr ?_ ?_ ?_ rfl rfl <;> intro x
  all_goals
    by_cases hx : x = h
    · subst hx; simp [holdEv]
    · simp [holdEv, upd_other _ _ _ _ hx]

theorem cinv_setEv {s : St} (i : CInv s) (h : Nat) (e : Ev) (l : Loc) (h1 : e.fn = (s.ev h).fn) (h2 : e.inv = (s.ev h).inv)
    (h3 : (s.ev h).dead = true → e.dead = true) : CInv (setEv s h e l) := by
  refine i.congr ?_ ?_ ?_ rfl rfl <;> intro x
  all_goals
    by_cases hx : x = h
    · subst hx; simp [setEv, h1, h2]; try exact h3
    · simp [setEv, upd_other _ _ _ _ hx]

theorem cinv_call {s : St} (i : CInv s) (h k : Nat) (v : Via) (e : Ev) (hk : (s.ev h).fn = some k) (hv : (s.ev h).inv = false)
    (hd : (s.ev h).dead = false) (he : e.fn = some k)
    (hcase : (e.inv = true ∧ v ≠ .destructor) ∨ (e.inv = false ∧ e.dead = true)) :
    CInv (obsCb { s with ev := upd s.ev h e } (.call h k v)) := by
  have hne : ∀ v', CbObs.call h k v' ∉ s.cbs := i.pend h k hk hv hd
  have hx : ∀ x, x ≠ h → upd s.ev h e x = s.ev x := fun x hx => upd_other _ _ _ _ hx
  refine ⟨?_, ?_, ?_, ?_, ?_, ?_, ?_, ?_, ?_⟩
  · intro h' k' hm; simp [obsCb] at hm ⊢; exact i.rlt h' k' hm
  · intro h1 h2 k' a b; simp [obsCb] at a b; exact i.runiq _ _ _ a b
  · intro h' k' v' hm; simp [obsCb] at hm ⊢
    rcases hm with ⟨rfl, rfl, rfl⟩ | hm
    · exact i.fnReg _ _ hk
    · exact i.cr _ _ _ hm
  · simp only [obsCb, List.filterMap_cons, CbObs.callOf, List.nodup_cons]
    refine ⟨?_, i.cnd⟩
    intro hm
    obtain ⟨o, ho, hoc⟩ := List.mem_filterMap.1 hm
    cases o with
    | reg _ _ => simp [CbObs.callOf] at hoc
    | call h' k' v' =>
      simp [CbObs.callOf] at hoc; subst hoc
      have := i.runiq _ _ _ (i.cr _ _ _ ho) (i.fnReg _ _ hk)
      subst this; exact hne _ ho
  · intro h' k' hf; simp [obsCb] at hf ⊢
    by_cases hh : h' = h
    · subst hh; simp [he] at hf; subst hf; exact i.fnReg _ _ hk
    · rw [hx _ hh] at hf; exact i.fnReg _ _ hf
  · intro h' k' hm; simp [obsCb] at hm ⊢
    obtain ⟨k2, h1, h2⟩ := i.last _ _ hm
    by_cases hh : h' = h
    · subst hh; simp [he]; rw [hk] at h1; simp at h1; omega
    · rw [hx _ hh]; exact ⟨k2, h1, h2⟩
  · intro h' k' hf hvv hdd v' hm
    simp [obsCb] at hf hvv hdd hm
    by_cases hh : h' = h
    · subst hh; simp at hvv hdd
      rcases hcase with ⟨a, _⟩ | ⟨_, a⟩
      · rw [a] at hvv; simp at hvv
      · rw [a] at hdd; simp at hdd
    · rw [hx _ hh] at hf hvv hdd
      rcases hm with ⟨rfl, _⟩ | hm
      · exact hh rfl
      · exact i.pend _ _ hf hvv hdd _ hm
  · intro h' k' hf hvv
    simp [obsCb] at hf hvv ⊢
    by_cases hh : h' = h
    · subst hh; simp [he] at hf; subst hf; exact ⟨v, by simp⟩
    · rw [hx _ hh] at hf hvv
      obtain ⟨w, hw⟩ := i.done _ _ hf hvv
      exact ⟨w, Or.inr hw⟩
  · intro h' k' hm
    simp [obsCb] at hm ⊢
    by_cases hh : h' = h
    · subst hh; simp
      rcases hm with ⟨_, _, rfl⟩ | hm
      · rcases hcase with ⟨_, a⟩ | ⟨_, a⟩
        · exact absurd rfl a
        · exact a
      · have := i.destr _ _ hm; rw [hd] at this; simp at this
    · rw [hx _ hh]
      rcases hm with ⟨rfl, _⟩ | hm
      · exact absurd rfl hh
      · exact i.destr _ _ hm

theorem cinv_reapEv {s : St} (i : CInv s) (h : Nat) : CInv (reapEv s h) := by
  unfold reapEv
  split
  · rename_i hc
    unfold destroyEv
    simp only
    have hq : CInv { s with ev := upd s.ev h { s.ev h with dead := true } } := by
      refine i.congr ?_ ?_ ?_ rfl rfl <;> intro x
      all_goals
        by_cases hx : x = h
        · subst hx; simp
        · simp [upd_other _ _ _ _ hx]
    split
    · rename_i k hk
      split
      · rename_i hv
        exact cinv_call i h k .destructor _ hk hv.1 hc.2.2 hk (Or.inr ⟨hv.1, rfl⟩)
      · exact hq
    · exact hq
  · exact i

theorem cinv_dropEv {s : St} (i : CInv s) (h : Nat) (a : Actor) : CInv (dropEv s h a) := by
  unfold dropEv
  apply cinv_reapEv
  refine i.congr ?_ ?_ ?_ rfl rfl <;> intro x
  all_goals
    by_cases hx : x = h
    · subst hx; simp
    · simp [upd_other _ _ _ _ hx]

theorem cinv_removeEv {s : St} (i : CInv s) (h : Nat) : CInv (removeEv s h) := by
  unfold removeEv
  apply cinv_reapEv
  exact i.congr (fun _ => rfl) (fun _ => rfl) (fun _ h => h) rfl rfl

theorem cinv_notifyCb {s : St} (i : CInv s) (h : Nat) (l : Loc) (hd : (s.ev h).dead = false) : CInv (notifyCb s h l) := by
  unfold notifyCb
  simp only
  split
  · rename_i k hk
    split
    · rename_i hv
      have := cinv_call i h k .completion { s.ev h with inv := true } hk hv hd hk (Or.inl ⟨rfl, by simp⟩)
      exact this.congr (fun _ => rfl) (fun _ => rfl) (fun _ h => h) rfl rfl
    · exact cinv_setEv i h _ l rfl rfl (fun h => h)
  · exact cinv_setEv i h _ l rfl rfl (fun h => h)

theorem cinv_reg {s : St} (i : CInv s) (h : Nat) (e : Ev) (hd : e.dead = (s.ev h).dead) (he : e.fn = some s.regs)
    (hv : e.inv = false) : CInv { s with regs := s.regs + 1, cbs := .reg h s.regs :: s.cbs, ev := upd s.ev h e } := by
  have hx : ∀ x, x ≠ h → upd s.ev h e x = s.ev x := fun x hx => upd_other _ _ _ _ hx
  refine ⟨?_, ?_, ?_, ?_, ?_, ?_, ?_, ?_, ?_⟩
  · intro h' k' hm; simp at hm ⊢
    rcases hm with ⟨_, rfl⟩ | hm
    · omega
    · have := i.rlt h' k' hm; omega
  · intro h1 h2 k' a b; simp at a b
    rcases a with ⟨rfl, rfl⟩ | a <;> rcases b with ⟨rfl, b⟩ | b
    · rfl
    · have := i.rlt _ _ b; omega
    · have := i.rlt _ _ a; omega
    · exact i.runiq _ _ _ a b
  · intro h' k' v' hm; simp at hm ⊢; exact Or.inr (i.cr _ _ _ hm)
  · simp only [List.filterMap_cons, CbObs.callOf]; exact i.cnd
  · intro h' k' hf; simp at hf ⊢
    by_cases hh : h' = h
    · subst hh; simp [he] at hf; subst hf; simp
    · rw [hx _ hh] at hf; exact Or.inr (i.fnReg _ _ hf)
  · intro h' k' hm; simp at hm ⊢
    by_cases hh : h' = h
    · subst hh; simp [he]
      rcases hm with ⟨_, rfl⟩ | hm
      · omega
      · have := i.rlt _ _ hm; omega
    · rw [hx _ hh]
      rcases hm with ⟨rfl, _⟩ | hm
      · exact absurd rfl hh
      · exact i.last _ _ hm
  · intro h' k' hf hvv hdd v' hm
    simp at hf hvv hdd hm
    by_cases hh : h' = h
    · subst hh; simp [he] at hf; subst hf
      have := i.rlt _ _ (i.cr _ _ _ hm); omega
    · rw [hx _ hh] at hf hvv hdd
      exact i.pend _ _ hf hvv hdd _ hm
  · intro h' k' hf hvv
    simp at hf hvv ⊢
    by_cases hh : h' = h
    · subst hh; simp [hv] at hvv
    · rw [hx _ hh] at hf hvv
      exact i.done _ _ hf hvv
  · intro h' k' hm
    simp at hm ⊢
    by_cases hh : h' = h
    · subst hh; simp [hd]; exact i.destr _ _ hm
    · rw [hx _ hh]; exact i.destr _ _ hm

theorem upd_upd {α : Type} (f : Nat → α) (i : Nat) (v w : α) : upd (upd f i v) i w = upd f i w := by
  funext j; by_cases h : j = i
  · subst h; simp
  · simp [upd_other _ _ _ _ h]

theorem cinv_setCb {s : St} (i : CInv s) (h : Nat) (hd : (s.ev h).dead = false) : CInv (setCb s h) := by
  have h1 := cinv_reg i h { s.ev h with fn := some s.regs, inv := false } rfl rfl rfl
  unfold setCb
  simp only
  split
  · have := cinv_call h1 h s.regs .registration { s.ev h with fn := some s.regs, inv := true } (by simp) (by simp) (by simp [hd])
      rfl (Or.inl ⟨rfl, by simp⟩)
    exact this.congr (by simp [obsCb, setEv, upd_upd]) (by simp [obsCb, setEv, upd_upd]) (by simp [obsCb, setEv, upd_upd]) rfl rfl
  · exact h1.congr (fun _ => rfl) (fun _ => rfl) (fun _ h => h) rfl rfl

theorem cinv_pushed {s : St} (i : CInv s) (j c h : Nat) (ws : List Nat) (t : Nat) : CInv (pushed s j c h ws t) := by
  unfold pushed
  apply cinv_dropCtx; apply cinv_dropEv; apply cinv_obs
  refine cinv_setEv ?_ h _ _ rfl rfl (fun h => h)
  exact i.congr (fun _ => rfl) (fun _ => rfl) (fun _ h => h) rfl rfl

theorem cinv_dropTask {s : St} (i : CInv s) (c t : Nat) (k : Task) : CInv (dropTask s c t k) := by
  unfold dropTask
  apply cinv_setWhy; apply cinv_obs
  exact cinv_setEv i _ _ _ rfl rfl (fun h => h)

theorem cinv_init : CInv init := by
  refine ⟨?_, ?_, ?_, ?_, ?_, ?_, ?_, ?_, ?_⟩ <;> simp [init, newEv]

theorem cinv_step {s s' : St} (st : Step s s') (k : CInv s) : CInv s' := by
  obtain ⟨⟨i, i2, hi⟩, al', hub, tr, ln, lu⟩ := id st
  have born : ∀ e l, e.fn = none → e.inv = true → e.dead = false → CInv (setEv s s.counter e l) := by
    intro e l a b c
    have hf := hi.fresh _ (i.fresh _ (Nat.le_refl s.counter))
    refine cinv_setEv k _ _ _ ?_ ?_ ?_ <;> rw [hf] <;> simp [newEv, a, b]
  have frame : ∀ (q : Nat → Nat → List Task), CInv { s with queue := q } :=
    fun q => k.congr (fun _ => rfl) (fun _ => rfl) (fun _ h => h) rfl rfl
  cases tr with
  | createCtx j ooo hp => exact k.congr (fun _ => rfl) (fun _ => rfl) (fun _ h => h) rfl rfl
  | createUser j c hp hc =>
    exact (born (newEv true []) .uNew rfl rfl rfl).congr (fun _ => rfl) (fun _ => rfl) (fun _ h => h) rfl rfl
  | enqueue j c ws blk hp hw hb hc =>
    exact (born (newEv false [.cl j]) (.alloc j) rfl rfl rfl).congr (fun _ => rfl) (fun _ => rfl) (fun _ h => h) rfl rfl
  | enqueueRet j c h ws t ot seen hp hr ht hlt =>
    exact (cinv_pushed k j c h ws t).congr (fun _ => rfl) (fun _ => rfl) (fun _ h => h) rfl rfl
  | relCtx j c hp hc =>
    exact k.congr (fun _ => rfl) (fun _ => rfl) (fun _ h => h) rfl rfl
  | newCC c t q hn hp hh => exact k.congr (fun _ => rfl) (fun _ => rfl) (fun _ h => h) rfl rfl
  | sig5 j h r hp =>
    apply cinv_ret; apply cinv_dropEv
    exact cinv_notifyCb k _ _ (hi.aliveOf (a := .cl j) (by simp [held, hp, heldC]))
  | setCb2 j h hp =>
    apply cinv_ret; apply cinv_dropEv
    exact cinv_setCb k _ (hi.aliveOf (a := .cl j) (by simp [held, hp, heldC]))
  | fin2 c t q r hn hp =>
    apply cinv_setM
    exact cinv_notifyCb k _ _ (hi.aliveOf (a := .mg c t) (by simp [held, hp, heldM]))
  | pop c t q rest hn hp hq hd =>
    apply cinv_setM; exact cinv_setEv (frame _) _ _ _ rfl rfl (fun h => h)
  | popDone c t q rest hn hp hq hd =>
    apply cinv_setM; exact cinv_dropTask (frame _) _ _ _
  | drain c t q rest hn hp hq => exact cinv_dropTask (frame _) _ _ _
  | enqueueBlk j c h ws t ot seen hp hr ht hlt => exact cinv_setC (cinv_pushed k _ _ _ _ _) _ _
  | _ =>
    repeat' first
      | with_reducible exact k
      | with_reducible apply cinv_ret
      | with_reducible apply cinv_setC
      | with_reducible apply cinv_setM
      | with_reducible apply cinv_obs
      | with_reducible apply cinv_setWhy
      | with_reducible apply cinv_bad
      | with_reducible apply cinv_dropCtx
      | with_reducible apply cinv_holdCtx
      | with_reducible apply cinv_dropEv
      | with_reducible apply cinv_removeEv
      | with_reducible apply cinv_holdEv
      | refine cinv_setEv ?_ _ _ _ rfl rfl (fun h => h)
      | (refine cinv_setEv ?_ _ _ _ (by simp) (by simp) (by simp))

theorem cinv {s : St} (h : Reachable s) : CInv s := reach_ind cinv_init (fun _ _ st k => cinv_step st k) h

end Mcut.Api
