import Verif.Spec.C54
import Verif.Props.C14
import Verif.Lemmas.ApiSkip

/-! Helper lemmas for `Props/C54.lean`. -/
namespace Mcut.Api

theorem DReach.reachable {s : St} (h : DReach s) : Reachable s := by
  induction h with
  | init => exact ⟨[], rfl⟩
  | step h hd hs ih => exact one_step ih hs

theorem bad_dropCtx {s : St} {c : Nat} {a : Actor} (hu : s.ub = false) (h : (dropCtx s c a).ub = true) : c ∉ s.ctxs ∧ ∃ c' t', a = .mg c' t' := by
  unfold dropCtx at h
  simp only at h
  split at h
  · rename_i hc
    cases a with
    | mg c' t' => exact ⟨hc.2, c', t', rfl⟩
    | cl i => simp [hu] at h
  · simp [hu] at h

/-- The call an idle client makes. -/
theorem call_of {s s' : St} {a : Act} (hs : step s a = some s') {i : Nat} (hi : s.cl i = .idle) (hne : s'.cl i ≠ .idle) :
    (∃ c ws blk, a = .enqueue i c ws blk ∧ s'.cl i = .submit c s.counter ws blk) ∨ (∃ h code, a = .signal i h code ∧ s'.cl i = .sig h code) ∨
    (∃ h, a = .setCb i h ∧ s'.cl i = .setcb h) ∨ (∃ ws, a = .wait i ws ∧ s'.cl i = .wait ws ws) ∨
    (∃ hs, a = .release i hs ∧ s'.cl i = .rel hs) ∨ ∃ c, a = .releaseCtx i c ∧ s'.cl i = .relCtx c := by
  have hub : s.ub = false := by
    cases hu : s.ub with
    | false => rfl
    | true => simp [step, hu] at hs
  simp only [step, hub, Bool.false_eq_true, if_false] at hs
  have oth : ∀ {p : Prop} j q, s'.cl = upd s.cl j q → s.cl j ≠ .idle → p := by
    intro p j q hcl hj
    rw [hcl, upd_other _ _ _ _ (by rintro rfl; exact hj hi)] at hne
    exact absurd hi hne
  have ret' : ∀ {p : Prop} j, s'.cl = upd s.cl j .idle → p := by
    intro p j hcl
    rw [hcl] at hne
    exact absurd (upd_ind (P := fun v : CPc => v = .idle) i (fun _ => rfl) (fun _ => hi)) hne
  have sameCl : ∀ {p : Prop}, s'.cl = s.cl → p := by intro p h; rw [h] at hne; exact absurd hi hne
  have self : ∀ j q, s'.cl = upd s.cl j q → j = i ∧ s'.cl i = q := by
    intro j q hcl
    by_cases hj : i = j
    · subst hj; exact ⟨rfl, by rw [hcl, upd_same]⟩
    · rw [hcl, upd_other _ _ _ _ hj] at hne; exact absurd hi hne
  cases a with
  | createCtx j ooo => simp only at hs; split at hs <;> simp at hs; subst hs; exact ret' j (by simp [createCtx, ret])
  | createUser j c =>
    simp only at hs; split at hs <;> simp at hs; subst hs
    refine ret' j ?_
    unfold createUser; split <;> simp [ret]
  | enqueue j c ws blk =>
    simp only at hs; split at hs <;> simp at hs; subst hs
    by_cases hc : c ∈ s.ctxs
    · obtain ⟨rfl, h⟩ := self j (.submit c s.counter ws blk) (by unfold beginEnqueue; simp [hc])
      exact Or.inl ⟨c, ws, blk, rfl, h⟩
    · exact ret' j (by unfold beginEnqueue; simp [hc, ret])
  | enqueue2 j seen =>
    simp only [finishEnqueue] at hs
    split at hs <;> [skip; simp at hs]
    rename_i hp
    split at hs
    · simp at hs; subst hs; exact ret' j (by simp [ret])
    · split at hs
      · rename_i blk _ _ _ _
        cases blk <;> simp at hs <;> subst hs
        · exact ret' j (by simp [ret])
        · exact oth j _ (by simp; rfl) (by rw [hp]; simp)
      · simp at hs; subst hs; exact sameCl rfl
  | blocking j =>
    simp only [blockStep] at hs
    split at hs
    · rename_i hp
      split at hs <;> simp at hs <;> subst hs
      · exact oth j _ (by simp; rfl) (by rw [hp]; simp)
      · exact sameCl rfl
    · rename_i hp
      split at hs <;> simp at hs; subst hs; exact oth j _ (by simp; rfl) (by rw [hp]; simp)
    · split at hs <;> simp at hs <;> subst hs
      · exact ret' j (by simp [ret])
      · exact sameCl rfl
    · simp at hs
  | signal j h code =>
    simp only at hs; split at hs <;> [skip; simp at hs]
    split at hs <;> simp at hs <;> subst hs
    · obtain ⟨rfl, h'⟩ := self j (.sig h code) (by simp)
      exact Or.inr (Or.inl ⟨h, code, rfl, h'⟩)
    · exact ret' j (by simp [ret])
  | signal2 j =>
    simp only [signalStep] at hs
    split at hs
    · rename_i hp
      split at hs
      · simp at hs; subst hs; exact sameCl rfl
      · split at hs <;> simp at hs <;> subst hs
        · exact ret' j (by simp [ret])
        · exact oth j _ (by simp; rfl) (by rw [hp]; simp)
    · rename_i hp; simp at hs; subst hs; exact oth j _ (by simp; rfl) (by rw [hp]; simp)
    · rename_i hp
      split at hs
      · simp at hs; subst hs; exact oth j _ (by simp; rfl) (by rw [hp]; simp)
      · split at hs <;> simp at hs <;> subst hs
        · exact oth j _ (by simp; rfl) (by rw [hp]; simp)
        · exact ret' j (by simp [ret])
    · rename_i hp; simp at hs; subst hs; exact oth j _ (by simp; rfl) (by rw [hp]; simp)
    · rename_i hp; simp at hs; subst hs; exact oth j _ (by simp; rfl) (by rw [hp]; simp)
    · simp at hs; subst hs; exact ret' j (by simp [ret])
    · simp at hs
  | setCb j h =>
    simp only at hs; split at hs <;> [skip; simp at hs]
    split at hs <;> simp at hs <;> subst hs
    · obtain ⟨rfl, h'⟩ := self j (.setcb h) (by simp)
      exact Or.inr (Or.inr (Or.inl ⟨h, rfl, h'⟩))
    · exact ret' j (by simp [ret])
  | setCb2 j => simp only at hs; split at hs <;> simp at hs; subst hs; exact ret' j (by simp [ret])
  | wait j ws =>
    simp only at hs; split at hs <;> simp at hs; subst hs
    obtain ⟨rfl, h'⟩ := self j (.wait ws ws) (by simp)
    exact Or.inr (Or.inr (Or.inr (Or.inl ⟨ws, rfl, h'⟩)))
  | wait2 j =>
    simp only [waitStep] at hs
    split at hs
    · simp at hs; subst hs; exact ret' j (by simp [ret])
    · rename_i hp
      split at hs <;> simp at hs <;> subst hs
      · exact oth j _ (by simp; rfl) (by rw [hp]; simp)
      · exact ret' j (by simp [ret])
    · rename_i hp
      split at hs <;> [skip; simp at hs]
      split at hs <;> simp at hs <;> subst hs
      · exact oth j _ (by simp; rfl) (by rw [hp]; simp)
      · exact ret' j (by simp [ret])
    · simp at hs
  | release j hs' =>
    simp only at hs; split at hs <;> simp at hs; subst hs
    obtain ⟨rfl, h'⟩ := self j (.rel hs') (by simp)
    exact Or.inr (Or.inr (Or.inr (Or.inr (Or.inl ⟨hs', rfl, h'⟩))))
  | release2 j =>
    simp only [relStep] at hs
    split at hs
    · simp at hs; subst hs; exact ret' j (by simp [ret])
    · rename_i hp
      split at hs <;> simp at hs <;> subst hs
      · exact oth j _ (by simp; rfl) (by rw [hp]; simp)
      · exact ret' j (by simp [ret])
    · simp at hs
  | releaseCtx j c =>
    simp only at hs; split at hs <;> [skip; simp at hs]
    split at hs <;> simp at hs <;> subst hs
    · obtain ⟨rfl, h'⟩ := self j (.relCtx c) (by simp)
      exact Or.inr (Or.inr (Or.inr (Or.inr (Or.inr ⟨c, rfl, h'⟩))))
    · exact ret' j (by simp [ret])
  | releaseCtx2 j => simp only at hs; split at hs <;> simp at hs; subst hs; exact ret' j (by simp [ret])
  | pop c t =>
    simp only at hs; split at hs <;> [skip; simp at hs]
    simp only [popStep] at hs
    refine sameCl ?_
    split at hs
    · split at hs <;> simp at hs <;> subst hs <;> simp
    · split at hs <;> simp at hs; subst hs; simp
    · simp at hs; subst hs; simp
    · simp at hs
  | dep c t =>
    simp only at hs; split at hs <;> [skip; simp at hs]
    simp only [depStep] at hs
    refine sameCl ?_
    split at hs
    · split at hs <;> simp at hs <;> subst hs <;> simp
    · split at hs <;> [skip; simp at hs]
      split at hs <;> simp at hs <;> subst hs <;> simp
    · split at hs
      · simp at hs; subst hs; rfl
      · simp only [Option.some.injEq] at hs; subst hs
        split <;> simp
    · simp at hs; subst hs; simp
    · simp at hs
  | run c t r =>
    simp only at hs; split at hs <;> [skip; simp at hs]
    simp only [runStep] at hs
    refine sameCl ?_
    split at hs
    · split at hs <;> [skip; simp at hs]
      simp only [Option.some.injEq] at hs; subst hs
      split <;> simp
    all_goals first | (simp at hs; done) | (simp at hs; subst hs; simp)
  | newCC c t =>
    simp only at hs; split at hs <;> [skip; simp at hs]
    simp only [newCC] at hs
    split at hs <;> [skip; simp at hs]
    split at hs <;> simp at hs; subst hs; exact sameCl rfl

/-- Not yet begun. -/
def early : Loc → Bool
  | .alloc _ | .queued _ _ | .pre _ _ => true
  | _ => false

/-- Still to be worked on by context `c`. -/
def busy (c : Nat) : Loc → Bool
  | .queued c' _ | .pre c' _ | .running c' _ => c' = c
  | _ => false

/-- What disciplined clients guarantee. -/
structure DI (s : St) : Prop where
  sub : ∀ i c h ws blk, s.cl i = .submit c h ws blk → c ∈ s.ctxs ∧ ∀ w ∈ ws, ∀ c' t, Obs.submit c' t w ∈ s.log → c' = c
  sig : ∀ i h code, s.cl i = .sig h code → isUser (s.loc h) = true
  rel : ∀ i, ∀ w ∈ cRel (s.cl i), early (s.loc w) = false
  evs : ∀ h, early (s.loc h) = true → h ∈ s.evs
  ctx : ∀ h c, busy c (s.loc h) = true → c ∈ s.ctxs

theorem pc_submit {s s' : St} (st : Step s s') {i c e : Nat} {ws : List Nat} {blk : Bool} (h : s'.cl i = .submit c e ws blk) :
    s.cl i = .submit c e ws blk ∨ (s.cl i = .idle ∧ c ∈ s.ctxs ∧ s'.ctxs = s.ctxs ∧ s'.log = s.log) := by
  obtain ⟨al, al', hub, tr, ln, lu⟩ := id st
  cases tr with
  | createCtx j ooo hp =>
    simp only [createCtx, ret] at h
    rcases upd_cases h with ⟨_, h⟩ | ⟨_, h⟩
    · simp at h
    · exact Or.inl h
  | enqueue j c' ws' blk' hp hw hb hc =>
    simp at h
    rcases upd_cases h with ⟨rfl, h⟩ | ⟨_, h⟩
    · simp at h; obtain ⟨rfl, _⟩ := h; exact Or.inr ⟨hp, hc, by simp, by simp⟩
    · exact Or.inl h
  | _ =>
    first
      | (simp at h; exact Or.inl h)
      | (simp [pushed] at h
         rcases upd_cases h with ⟨_, h⟩ | ⟨_, h⟩
         · simp at h
         · exact Or.inl h)

theorem pc_sig {s s' : St} (st : Step s s') {i x : Nat} {code : Int} (h : s'.cl i = .sig x code) :
    s.cl i = .sig x code ∨ s.cl i = .idle := by
  obtain ⟨al, al', hub, tr, ln, lu⟩ := id st
  cases tr with
  | createCtx j ooo hp =>
    simp only [createCtx, ret] at h
    rcases upd_cases h with ⟨_, h⟩ | ⟨_, h⟩
    · simp at h
    · exact Or.inl h
  | signal j h' code' hp ho he =>
    simp at h
    rcases upd_cases h with ⟨rfl, h⟩ | ⟨_, h⟩
    · exact Or.inr hp
    · exact Or.inl h
  | _ =>
    first
      | (simp at h; exact Or.inl h)
      | (simp [pushed] at h
         rcases upd_cases h with ⟨_, h⟩ | ⟨_, h⟩
         · simp at h
         · exact Or.inl h)

theorem pc_rel {s s' : St} (st : Step s s') {i w : Nat} (h : w ∈ cRel (s'.cl i)) : w ∈ cRel (s.cl i) ∨ s.cl i = .idle := by
  obtain ⟨al, al', hub, tr, ln, lu⟩ := id st
  have go : ∀ j p, s'.cl = upd s.cl j p → (w ∈ cRel p → w ∈ cRel (s.cl j) ∨ s.cl j = .idle) → w ∈ cRel (s.cl i) ∨ s.cl i = .idle := by
    intro j p hcl hh
    rw [hcl] at h
    by_cases hj : i = j
    · subst hj; rw [upd_same] at h; exact hh h
    · rw [upd_other _ _ _ _ hj] at h; exact Or.inl h
  cases tr with
  | createCtx j ooo hp => exact go j .idle (by simp [createCtx, ret]) (by simp [cRel])
  | release j hs hp ho => exact go j (.rel hs) (by simp) (fun _ => Or.inr hp)
  | rel j x rest hp he => exact go j (.rel rest) (by simp) (fun h => Or.inl (by rw [hp]; simp [cRel] at h ⊢; exact Or.inr h))
  | _ =>
    first
      | (simp at h; exact Or.inl h)
      | (refine go _ _ (by simp [ret]; rfl) (by simp [cRel]))

theorem pc_ctxs {s s' : St} (st : Step s s') {c : Nat} (h : c ∈ s.ctxs) (hn : c ∉ s'.ctxs) : ∃ j, s.cl j = .idle ∧ s'.cl j = .relCtx c := by
  obtain ⟨al, al', hub, tr, ln, lu⟩ := id st
  cases tr with
  | createCtx j ooo hp => simp [createCtx] at hn; exact absurd h hn.2
  | relCtx j c' hp hc =>
    simp at hn
    have := hn h; subst this
    exact ⟨j, hp, by simp [upd_same]⟩
  | _ => exact absurd h (by simpa [pushed] using hn)

theorem pc_evs {s s' : St} (st : Step s s') {x : Nat} (h : x ∈ s.evs) (hn : x ∉ s'.evs) :
    (∃ j c r, s.cl j = .brel c x r) ∨ ∃ j rest, s.cl j = .rel (x :: rest) := by
  obtain ⟨al, al', hub, tr, ln, lu⟩ := id st
  cases tr with
  | createCtx j ooo hp => exact absurd h hn
  | brel j c y r hp he =>
    simp at hn
    have := hn h; subst this
    exact Or.inl ⟨j, c, r, hp⟩
  | rel j y rest hp he =>
    simp at hn
    have := hn h; subst this
    exact Or.inr ⟨j, rest, hp⟩
  | _ =>
    first
      | exact absurd h (by simpa [pushed] using hn)
      | (simp at hn; exact absurd h hn.2)

theorem early_keep {s s' : St} (st : Step s s') {w : Nat} (ho : okArg s w) (h : early (s.loc w) = false) : early (s'.loc w) = false := by
  rcases st.ln w with l | l
  · rw [l]; exact h
  · have h1 : ∀ i, s'.loc w ≠ .alloc i := by
      intro i e
      rcases ho with ho | ho
      · exact (st.all'.i2.rt w (st.returned w ho)).2.1 i e
      · have := st.all'.i2.iss w (st.all'.i2.born w (by rw [e]; simp)); omega
    generalize s.loc w = l0 at l h
    generalize s'.loc w = l1 at l h1
    cases l <;> simp [early] at h h1 ⊢

theorem done_not_early {s : St} (i : Inv s) {h : Nat} (hd : DoneIn s.log h) : early (s.loc h) = false ∧ ∀ c, busy c (s.loc h) = false := by
  rcases hd with ⟨c, t, r, hd⟩ | ⟨c, t, hd⟩
  · rcases stop_loc i hd with e | e | e | e | e | e <;> rw [e] <;> exact ⟨rfl, fun _ => rfl⟩
  · rcases skip_loc i hd with e | e <;> rw [e] <;> exact ⟨rfl, fun _ => rfl⟩

theorem di_step {s s' : St} {a : Act} (hr : Reachable s) (hs : step s a = some s') (hd : Disciplined s a) (d : DI s) : DI s' := by
  have st := step_of (all_of hr) hs
  have hr' := one_step hr hs
  have i0 := st.all.i
  -- a context only disappears by a disciplined release
  have hctx : ∀ c, c ∈ s.ctxs → c ∉ s'.ctxs → (∀ t h, Obs.submit c t h ∈ s.log → DoneIn s.log h) ∧ ∀ i h ws blk, s.cl i ≠ .submit c h ws blk := by
    intro c hc hn
    obtain ⟨j, h1, h2⟩ := pc_ctxs st hc hn
    rcases call_of hs h1 (by rw [h2]; simp) with ⟨_, _, _, -, h⟩ | ⟨_, _, -, h⟩ | ⟨_, -, h⟩ | ⟨_, -, h⟩ | ⟨_, -, h⟩ | ⟨c', e, h⟩
    all_goals rw [h2] at h
    all_goals simp at h
    subst h; subst e; exact hd
  refine ⟨?_, ?_, ?_, ?_, ?_⟩
  · intro i c h ws blk hp
    rcases pc_submit st hp with hp0 | ⟨hi, hc, e1, e2⟩
    · obtain ⟨h1, h2⟩ := d.sub i c h ws blk hp0
      refine ⟨?_, ?_⟩
      · by_contra hn
        exact (hctx c h1 hn).2 i h ws blk hp0
      · intro w hw c' t hm
        by_cases hm0 : Obs.submit c' t w ∈ s.log
        · exact h2 w hw c' t hm0
        · obtain ⟨j, ws', blk', _, _, hj, -⟩ := step_submit_new st hm hm0
          have hal := i0.locC hj (h := w) rfl
          rcases st.all.i2.wok h w (by rw [st.all.i2.so i c h ws blk hp0]; exact hw) with ho | ho
          · exact absurd hal ((st.all.i2.rt w ho).2.1 j)
          · have := st.all.i2.iss w (st.all.i2.born w (by rw [hal]; simp)); omega
    · refine ⟨by rw [e1]; exact hc, ?_⟩
      rw [e2]
      rcases call_of hs hi (by rw [hp]; simp) with ⟨c', ws', blk', e, h⟩ | ⟨_, _, -, h⟩ | ⟨_, -, h⟩ | ⟨_, -, h⟩ | ⟨_, -, h⟩ | ⟨_, -, h⟩
      all_goals rw [hp] at h
      all_goals simp at h
      obtain ⟨rfl, _, rfl, rfl⟩ := h
      subst e; exact hd
  · intro i h code hp
    have key : isUser (s.loc h) = true := by
      rcases pc_sig st hp with hp0 | hi
      · exact d.sig i h code hp0
      · rcases call_of hs hi (by rw [hp]; simp) with ⟨_, _, _, -, e⟩ | ⟨h', code', e, e'⟩ | ⟨_, -, e⟩ | ⟨_, -, e⟩ | ⟨_, -, e⟩ | ⟨_, -, e⟩
        · rw [hp] at e; simp at e
        · rw [hp] at e'; simp at e'; obtain ⟨rfl, rfl⟩ := e'
          subst e
          obtain ⟨j, c, hm⟩ := hd
          rcases (rinv hr).rets _ hm with ⟨-, hh⟩ | ⟨hh, -⟩
          · exact hh
          · exact absurd hh (by decide)
        all_goals (rw [hp] at e; simp at e)
    exact st.loc_of (P := fun l => isUser l = true) (fun _ _ n h => isUser_next n h) key
  · intro i w hw
    rcases pc_rel st hw with hw0 | hi
    · exact early_keep st ((rinv hr).rel i w hw0) (d.rel i w hw0)
    · rcases call_of hs hi (by intro e; rw [e] at hw; simp [cRel] at hw) with ⟨_, _, _, -, e⟩ | ⟨_, _, -, e⟩ | ⟨_, -, e⟩ | ⟨_, -, e⟩ | ⟨hs', e', e⟩ | ⟨_, -, e⟩
      all_goals rw [e] at hw
      all_goals simp [cRel] at hw
      subst e'
      have hub := st.ub
      simp only [step, hub, Bool.false_eq_true, if_false] at hs
      split at hs <;> [skip; simp at hs]
      rename_i hok
      refine early_keep st (hok.2 w hw) ?_
      by_contra he
      have he : early (s.loc w) = true := by simpa using he
      have hne : s.loc w ≠ .unborn := by intro e; rw [e] at he; simp [early] at he
      have hret : w ∈ s.returned := by
        rcases hok.2 w hw with h | h
        · exact h
        · have := st.all.i2.iss w (st.all.i2.born w hne); omega
      have hna := (st.all.i2.rt w hret).2.1
      have hpl : ∃ c t, place (s.loc w) = some (c, t) := by
        generalize s.loc w = l at he hna
        cases l <;> simp [early] at he hna <;> exact ⟨_, _, rfl⟩
      obtain ⟨c, t, hpl⟩ := hpl
      have := (done_not_early i0 (hd w hw c t ((place_log i0 w c t).1 hpl))).1
      rw [he] at this; simp at this
  · intro h he
    by_cases he0 : early (s.loc h) = true
    · by_contra hn
      rcases pc_evs st (d.evs h he0) hn with ⟨j, c, r, hp⟩ | ⟨j, rest, hp⟩
      · have := (rinv hr).brel j c h r hp
        generalize s.loc h = l at this he0
        cases l <;> simp [settled, early] at this he0
      · have := d.rel j h (by rw [hp]; simp [cRel])
        rw [he0] at this; simp at this
    · have hal : ∃ i, s'.loc h = .alloc i := by
        rcases st.ln h with l | l
        · rw [l] at he; exact absurd he he0
        · generalize s.loc h = l0 at l he0
          generalize s'.loc h = l1 at l he
          cases l <;> simp [early] at he he0 ⊢
      obtain ⟨i, hi⟩ := hal
      have hc := st.all'.i.conv h (.cl i) (by rw [hi]; rfl)
      simp only [expA] at hc
      have : ∃ c ws blk, s'.cl i = .submit c h ws blk := by
        rw [hi] at hc
        generalize s'.cl i = p at hc
        cases p <;> simp [expC] at hc
        subst hc; exact ⟨_, _, _, rfl⟩
      obtain ⟨c, ws, blk, hp⟩ := this
      exact (rsinv hr').2 i c h ws blk hp
  · intro h c hb
    by_cases hb0 : busy c (s.loc h) = true
    · by_contra hn
      have hpl : ∃ t, place (s.loc h) = some (c, t) := by
        generalize s.loc h = l at hb0
        cases l <;> simp [busy] at hb0 <;> subst hb0 <;> exact ⟨_, rfl⟩
      obtain ⟨t, hpl⟩ := hpl
      have := (done_not_early i0 ((hctx c (d.ctx h c hb0) hn).1 t h ((place_log i0 h c t).1 hpl))).2 c
      rw [hb0] at this; simp at this
    · have hq : ∃ t, s'.loc h = .queued c t := by
        rcases st.ln h with l | l
        · rw [l] at hb; exact absurd hb hb0
        · generalize s.loc h = l0 at l hb0
          generalize s'.loc h = l1 at l hb
          cases l <;> simp [busy] at hb hb0 ⊢
          · exact hb
          · exact hb0 hb
          · exact hb0 hb
      obtain ⟨t, hq⟩ := hq
      have hm := (place_log st.all'.i h c t).1 (by rw [hq]; rfl)
      have hm0 : Obs.submit c t h ∉ s.log := by
        intro hm0
        have := (place_log i0 h c t).2 hm0
        rcases st.ln h with l | l
        · rw [l, ] at hq; rw [hq] at hb0; simp [busy] at hb0
        · rw [hq] at l
          generalize s.loc h = l0 at l this
          cases l; simp [place] at this
      obtain ⟨j, ws', blk', _, _, hj, -⟩ := step_submit_new st hm hm0
      by_contra hn
      exact (hctx c (d.sub j c h ws' blk' hj).1 hn).2 j h ws' blk' hj

theorem causes (s s' : St) (a : Act) (hr : Reachable s) (hs : step s a = some s') (hb : s'.ub = true) :
    (∃ i seen c h ws blk w c' t', a = .enqueue2 i seen ∧ s.cl i = .submit c h ws blk ∧ w ∈ ws ∧ c' ≠ c ∧ Obs.submit c' t' w ∈ s.log) ∨
    (∃ i h code, a = .signal2 i ∧ s.cl i = .sig h code ∧ (s.ev h).user = false) ∨
    (∃ c t k, a = .dep c t ∧ s.mgr c t = .lookup k [] ∧ k.ev ∉ s.evs) ∨
    (∃ c t k r, a = .run c t r ∧ s.mgr c t = .run k ∧ c ∉ s.ctxs) := by
  have hub : s.ub = false := by
    cases hu : s.ub with
    | false => rfl
    | true => simp [step, hu] at hs
  have hs0 := hs
  have al := all_of hr
  simp only [step, hub, Bool.false_eq_true, if_false] at hs
  have no : ∀ {p : Prop}, s'.ub = false → p := fun h => by rw [h] at hb; simp at hb
  cases a with
  | enqueue2 i seen =>
    obtain ⟨c, h, ws, blk, hp, -, hf⟩ := C14_queue_index_valid_partial s s' hr i seen hs0
    obtain ⟨w, hw, c', t', hne, hsub, -⟩ := hf hb
    exact Or.inl ⟨i, seen, c, h, ws, blk, w, c', t', rfl, hp, hw, hne, hsub⟩
  | createCtx i ooo => simp only at hs; split at hs <;> simp at hs; subst hs; exact no hub
  | createUser i c =>
    simp only at hs; split at hs <;> simp at hs; subst hs
    unfold createUser at hb; split at hb <;> simp [hub] at hb
  | enqueue i c ws blk =>
    simp only at hs; split at hs <;> simp at hs; subst hs
    unfold beginEnqueue at hb; split at hb <;> simp [hub] at hb
  | blocking i =>
    have m := rinv hr
    simp only [blockStep] at hs
    split at hs
    · rename_i c h hp
      rw [if_pos (m.blk i c h (by rw [hp]; rfl)).2.1] at hs; simp at hs; subst hs; simp [hub] at hb
    · split at hs <;> simp at hs; subst hs; simp [hub] at hb
    · rename_i c h r hp
      rw [if_pos (m.blk i c h (by rw [hp]; rfl)).2.1] at hs; simp at hs; subst hs; simp [hub] at hb
    · simp at hs
  | signal i h code =>
    simp only at hs; split at hs <;> [skip; simp at hs]
    split at hs <;> simp at hs <;> subst hs <;> simp [hub] at hb
  | signal2 i =>
    right; left
    simp only [signalStep] at hs
    split at hs
    · rename_i h code hp
      split at hs
      · exact ⟨i, h, code, rfl, hp, by assumption⟩
      · split at hs <;> simp at hs <;> subst hs <;> simp [hub] at hb
    · simp at hs; subst hs; simp [hub] at hb
    · split at hs
      · simp at hs; subst hs; simp [hub] at hb
      · split at hs <;> simp at hs <;> subst hs <;> simp [hub] at hb
    · simp at hs; subst hs; simp [hub] at hb
    · simp at hs; subst hs; simp [hub] at hb
    · simp at hs; subst hs; simp [hub] at hb
    · simp at hs
  | setCb i h =>
    simp only at hs; split at hs <;> [skip; simp at hs]
    split at hs <;> simp at hs <;> subst hs <;> simp [hub] at hb
  | setCb2 i => simp only at hs; split at hs <;> simp at hs; subst hs; simp [hub] at hb
  | wait i ws => simp only at hs; split at hs <;> simp at hs; subst hs; simp [hub] at hb
  | wait2 i =>
    simp only [waitStep] at hs
    split at hs
    · simp at hs; subst hs; simp [hub] at hb
    · split at hs <;> simp at hs <;> subst hs <;> simp [hub] at hb
    · split at hs <;> [skip; simp at hs]
      split at hs <;> simp at hs <;> subst hs <;> simp [hub] at hb
    · simp at hs
  | release i hs' => simp only at hs; split at hs <;> simp at hs; subst hs; simp [hub] at hb
  | release2 i =>
    simp only [relStep] at hs
    split at hs
    · simp at hs; subst hs; simp [hub] at hb
    · split at hs <;> simp at hs <;> subst hs <;> simp [hub] at hb
    · simp at hs
  | releaseCtx i c =>
    simp only at hs; split at hs <;> [skip; simp at hs]
    split at hs <;> simp at hs <;> subst hs <;> simp [hub] at hb
  | releaseCtx2 i =>
    simp only at hs; split at hs <;> simp at hs; subst hs
    simp at hb
    obtain ⟨-, c', t', h⟩ := bad_dropCtx hub hb
    simp at h
  | pop c t =>
    simp only at hs; split at hs <;> [skip; simp at hs]
    simp only [popStep] at hs
    split at hs
    · split at hs <;> simp at hs <;> subst hs <;> simp [hub] at hb
    · split at hs <;> simp at hs; subst hs; simp [hub] at hb
    · simp at hs; subst hs; simp [hub] at hb
    · simp at hs
  | dep c t =>
    right; right; left
    simp only at hs; split at hs <;> [skip; simp at hs]
    simp only [depStep] at hs
    split at hs
    · split at hs <;> simp at hs <;> subst hs <;> simp [hub] at hb
    · split at hs <;> [skip; simp at hs]
      split at hs <;> simp at hs <;> subst hs <;> simp [hub] at hb
    · rename_i k hp
      split at hs
      · rename_i hd
        exact ⟨c, t, k, rfl, hp, ((al.hi.deadOk k.ev).1 hd).2.1⟩
      · simp only [Option.some.injEq] at hs; subst hs
        split at hb <;> simp [hub] at hb
    · simp at hs; subst hs; simp [hub] at hb
    · simp at hs
  | run c t r =>
    right; right; right
    simp only at hs; split at hs <;> [skip; simp at hs]
    simp only [runStep] at hs
    split at hs
    · rename_i k hp
      split at hs <;> [skip; simp at hs]
      simp only [Option.some.injEq] at hs; subst hs
      split at hb
      · simp at hb; exact ⟨c, t, k, r, rfl, hp, (bad_dropCtx hub hb).1⟩
      · simp [hub] at hb
    all_goals first | (simp at hs; done) | (simp at hs; subst hs; simp [hub] at hb)
  | newCC c t =>
    simp only at hs; split at hs <;> [skip; simp at hs]
    simp only [newCC] at hs
    split at hs <;> [skip; simp at hs]
    split at hs <;> simp at hs; subst hs; exact no hub

theorem di_of {s : St} (h : DReach s) : DI s ∧ s.ub = false := by
  induction h with
  | init => refine ⟨⟨?_, ?_, ?_, ?_, ?_⟩, rfl⟩ <;> simp [init, cRel, early, busy]
  | step h hd hs ih =>
    rename_i s s' a
    have hr := h.reachable
    refine ⟨di_step hr hs hd ih.1, ?_⟩
    have d := ih.1
    have i0 := (all_of hr).i
    by_contra hu
    have hu : s'.ub = true := by simpa using hu
    rcases causes s s' a hr hs hu with ⟨i, seen, c, x, ws, blk, w, c', t', -, h1, h2, h3, h4⟩ | ⟨i, x, code, -, h1, h2⟩ | ⟨c, t, k, -, h1, h2⟩ | ⟨c, t, k, r, -, h1, h2⟩
    · exact h3 ((d.sub i c x ws blk h1).2 w h2 c' t' h4)
    · have h3 := d.sig i x code h1
      have h4 := i0.fields x
      simp only [core, h2] at h4
      generalize s.loc x = l at h3 h4
      cases l <;> simp [isUser, expect] at h3 h4
    · exact h2 (d.evs k.ev (by rw [i0.locM h1 (h := k.ev) rfl]; rfl))
    · exact h2 (d.ctx k.ev c (by rw [i0.locM h1 (h := k.ev) rfl]; simp [busy]))

/-- Trivially disciplined steps. -/
theorem dgo {m : List Act} : ∀ {s : St}, DReach s → (∀ a ∈ m, ∀ t, Disciplined t a) → ∀ {s'}, runSched step s m = some s' → DReach s' := by
  induction m with
  | nil => intro s h _ s' hs; simp [runSched] at hs; exact hs ▸ h
  | cons a l ih =>
    intro s h hd s' hs
    cases he : Api.step s a with
    | none => simp [runSched, he] at hs
    | some s1 =>
      exact ih (DReach.step h (hd a (by simp) s) he) (fun b hb => hd b (by simp [hb])) (by simpa [runSched, he] using hs)

theorem dseg {l : List Act} (m : List Act) (h : ∃ s, DReach s ∧ runSched step init l = some s) (hd : ∀ a ∈ m, ∀ t, Disciplined t a)
    (ok : (runSched step init (l ++ m)).isSome = true) : ∃ s, DReach s ∧ runSched step init (l ++ m) = some s := by
  obtain ⟨s, h, e⟩ := h
  obtain ⟨s', e'⟩ := Option.isSome_iff_exists.mp ok
  refine ⟨s', dgo h hd ?_, e'⟩
  rw [runSched_append, e] at e'; exact e'

theorem dact {l : List Act} (a : Act) (h : ∃ s, DReach s ∧ runSched step init l = some s) (hd : ∀ s, runSched step init l = some s → Disciplined s a)
    (ok : (runSched step init (l ++ [a])).isSome = true) : ∃ s, DReach s ∧ runSched step init (l ++ [a]) = some s := by
  obtain ⟨s, h, e⟩ := h
  obtain ⟨s', e'⟩ := Option.isSome_iff_exists.mp ok
  refine ⟨s', DReach.step h (hd s e) ?_, e'⟩
  rw [runSched_append, e] at e'
  cases hh : step s a <;> simp [runSched, hh] at e' ⊢
  exact e'

end Mcut.Api
