import Verif.Lemmas.ApiOrder
/-! Contexts, queues and submission order in the API model. -/
namespace Mcut.Api

/-- The queue a command was pushed to. -/
def place : Loc → Option (Nat × Nat)
  | .queued c t | .pre c t | .skipping c t | .skipped c t | .running c t | .ran c t _ | .fin1 c t _ | .fin2 c t _
  | .fin3 c t _ | .fin4 c t _ | .over c t _ => some (c, t)
  | _ => none

theorem place_next {l l' : Loc} (n : Next l l') {p : Nat × Nat} (h : place l = some p) : place l' = some p := by
  cases n <;> simp [place] at h ⊢ <;> exact h

theorem place_prev {l l' : Loc} (n : Next l l') {c t : Nat} (h : place l' = some (c, t)) : place l = some (c, t) ∨ l' = .queued c t := by
  cases n <;> simp [place] at h ⊢ <;> exact h

theorem holdEv_tid (s : St) (h : Nat) (a : Actor) (x : Nat) : ((holdEv s h a).ev x).tid = (s.ev x).tid := by
  by_cases hx : x = h
  · subst hx; simp [holdEv]
  · simp [holdEv, upd_other _ _ _ _ hx]

theorem setEv_tid (s : St) (h : Nat) (e : Ev) (l : Loc) (x : Nat) :
    ((setEv s h e l).ev x).tid = if x = h then e.tid else (s.ev x).tid := by
  by_cases hx : x = h
  · subst hx; simp [setEv]
  · simp [setEv, upd_other _ _ _ _ hx, hx]

theorem setEv_tidSame (s : St) (h : Nat) (e : Ev) (l : Loc) (he : e.tid = (s.ev h).tid) (x : Nat) :
    ((setEv s h e l).ev x).tid = (s.ev x).tid := by
  rw [setEv_tid]; split
  · rename_i hx; rw [hx, he]
  · rfl

theorem dropCtx_done (s : St) (c : Nat) (a : Actor) (x : Nat) (h : (dropCtx s c a).done x = true) :
    s.done x = true ∨ (x = c ∧ c ∉ s.ctxs) := by
  unfold dropCtx at h
  simp only at h
  split at h
  · rename_i hc
    have : upd s.done c true x = true := by
      cases a <;> simpa [bad] using h
    by_cases hx : x = c
    · exact Or.inr ⟨hx, hc.2⟩
    · rw [upd_other _ _ _ _ hx] at this; exact Or.inl this
  · exact Or.inl h

theorem upd_ind {α : Type} {P : α → Prop} {f : Nat → α} {i : Nat} {v : α} (j : Nat) (h1 : j = i → P v) (h2 : j ≠ i → P (f j)) :
    P (upd f i v j) := by
  by_cases h : j = i
  · subst h; rw [upd_same]; exact h1 rfl
  · rw [upd_other _ _ _ _ h]; exact h2 h

theorem base_fresh {s : St} (al : All s) : base s ∉ s.issued := by
  intro h
  have := al.i2.iss _ h
  unfold base at this h
  cases hi : s.inited with
  | true => simp [hi] at this
  | false =>
    have := (al.i2.ini hi).1
    have := al.i2.iss _ h
    omega

theorem step_issued {s s' : St} (st : Step s s') {x : Nat} (h : x ∈ s.issued) : x ∈ s'.issued := by
  obtain ⟨al, al', hub, tr, ln, lu⟩ := id st
  cases tr <;> first
    | (simp [createCtx, pushed]; tauto)
    | (simp [createCtx, pushed]; exact h)

theorem step_nq {s s' : St} (st : Step s s') {c : Nat} (h : c ∈ s.issued) : s'.nq c = s.nq c := by
  obtain ⟨al, al', hub, tr, ln, lu⟩ := id st
  cases tr with
  | createCtx i ooo hp =>
    have := base_fresh al
    simp only [createCtx, ret]
    exact upd_other _ _ _ _ (by rintro rfl; exact this h)
  | _ => simp [pushed]

/-- Contexts have one or two queues; the numbers belong to issued handles. -/
structure NqInv (s : St) : Prop where
  le : ∀ c, s.nq c ≤ 2
  iss : ∀ c, 0 < s.nq c → c ∈ s.issued
  live : ∀ c ∈ s.ctxs, 0 < s.nq c

theorem nqinv {s : St} (h : Reachable s) : NqInv s := by
  refine reach_ind (P := NqInv) ?_ ?_ h
  · refine ⟨?_, ?_, ?_⟩ <;> simp [init]
  · intro s s' st n
    obtain ⟨al, al', hub, tr, ln, lu⟩ := id st
    have hi : ∀ x ∈ s.issued, x ∈ s'.issued := fun x => step_issued st
    cases tr with
    | createCtx i ooo hp =>
      refine ⟨?_, ?_, ?_⟩
      · intro c
        refine upd_ind (P := fun v => v ≤ 2) c ?_ ?_
        · rintro -; split <;> omega
        · intro _; exact n.le c
      · intro c
        refine upd_ind (P := fun v => 0 < v → c ∈ base s :: s.issued) c ?_ ?_
        · rintro rfl _; simp
        · intro _ h; exact List.mem_cons_of_mem _ (n.iss c h)
      · intro c
        refine upd_ind (P := fun v => c ∈ base s :: s.ctxs → 0 < v) c ?_ ?_
        · rintro rfl _; split <;> omega
        · intro hne h; exact n.live c ((List.mem_cons.1 h).resolve_left hne)
    | relCtx i c hp hc =>
      refine ⟨by simpa using n.le, by simpa using n.iss, ?_⟩
      intro c hc
      simp at hc ⊢
      exact n.live c hc.1
    | _ => exact ⟨by simpa [pushed] using n.le, by intro c hc; exact hi c (n.iss c (by simpa [pushed] using hc)), by simpa [pushed] using n.live⟩

theorem step_submit {s s' : St} (st : Step s s') {i c e : Nat} {ws : List Nat} {blk : Bool} (h : s'.cl i = .submit c e ws blk) :
    s.cl i = .submit c e ws blk ∨ c ∈ s.ctxs := by
  obtain ⟨al, al', hub, tr, ln, lu⟩ := id st
  cases tr with
  | createCtx j ooo hp =>
    simp only [createCtx, ret] at h
    rcases upd_cases h with ⟨_, h⟩ | ⟨_, h⟩
    · simp at h
    · exact Or.inl h
  | enqueue j c' ws' blk' hp hw hb hc =>
    simp at h
    rcases upd_cases h with ⟨_, h⟩ | ⟨_, h⟩
    · simp at h; obtain ⟨rfl, _⟩ := h; exact Or.inr hc
    · exact Or.inl h
  | _ =>
    first
      | (simp at h; exact Or.inl h)
      | (simp [pushed] at h
         rcases upd_cases h with ⟨_, h⟩ | ⟨_, h⟩
         · simp at h
         · exact Or.inl h)

/-- The context a submission is about has queues. -/
theorem submit_nq {s : St} (h : Reachable s) : ∀ i c e ws blk, s.cl i = .submit c e ws blk → 0 < s.nq c := by
  have : NqInv s ∧ ∀ i c e ws blk, s.cl i = .submit c e ws blk → 0 < s.nq c := by
    refine Reach.inv (P := fun s => Reachable s ∧ ∀ i c e ws blk, s.cl i = .submit c e ws blk → 0 < s.nq c) ?_ ?_ h |>.imp nqinv id
    · rintro s a s' ⟨hr, ih⟩ hst
      have st := step_of (all_of hr) hst
      refine ⟨hr.trans ⟨[a], by simp [runSched, hst]⟩, ?_⟩
      intro i c e ws blk hp
      have n := nqinv hr
      have : 0 < s.nq c := by
        rcases step_submit st hp with h | h
        · exact ih i c e ws blk h
        · exact n.live c h
      rw [step_nq st (n.iss c this)]; exact this
    · exact ⟨⟨[], rfl⟩, by simp [init]⟩
  exact this.2

theorem place_log {s : St} (i : Inv s) (h c t : Nat) : place (s.loc h) = some (c, t) ↔ Obs.submit c t h ∈ s.log := by
  have : Obs.submit c t h ∈ s.log ↔ Obs.submit c t h ∈ s.log.filter (fun o => o.subj = h) := by
    simp [List.mem_filter, Obs.subj]
  rw [this, i.hist h]
  generalize s.loc h = l
  cases l <;> simp [place, obsOf] <;> tauto

/-- Queue of a command: recorded in its event, and a valid index. -/
def TInv (s : St) : Prop := ∀ h c t, Obs.submit c t h ∈ s.log → (s.ev h).tid = some t ∧ t < s.nq c

theorem step_tid {s s' : St} (st : Step s s') {h : Nat} (hb : s.loc h ≠ .unborn) :
    (s'.ev h).tid = (s.ev h).tid ∨ ∃ c t, s'.loc h = .queued c t ∧ s.loc h ≠ .queued c t ∧ (s'.ev h).tid = some t := by
  obtain ⟨al, al', hub, tr, ln, lu⟩ := id st
  have hne : h ≠ s.counter := by rintro rfl; exact hb (al.i.fresh _ (Nat.le_refl _))
  cases tr with
  | createCtx j ooo hp => exact Or.inl rfl
  | enqueueBlk j c x ws t ot seen hp hr ht hlt =>
    by_cases hx : h = x
    · subst hx
      right
      have := al.i.locC hp (h := h) rfl
      exact ⟨c, t, by simp, by rw [this]; simp, by simp [pushed, setEv_tid]⟩
    · left; simp [pushed, setEv_tid, hx]
  | enqueueRet j c x ws t ot seen hp hr ht hlt =>
    by_cases hx : h = x
    · subst hx
      right
      have := al.i.locC hp (h := h) rfl
      exact ⟨c, t, by simp, by rw [this]; simp, by simp [pushed, setEv_tid]⟩
    · left; simp [pushed, setEv_tid, hx]
  | _ =>
    left
    first
      | (simp; done)
      | (simp [holdEv_tid]; done)
      | (simp [setEv_tid, holdEv_tid, hne]; done)
      | (simp [setEv_tid, holdEv_tid, dropTask]; rintro rfl; rfl)
      | (simp [setEv_tid, holdEv_tid, dropTask]; rintro rfl; simp [holdEv_tid])

theorem one_step {s s' : St} {a : Act} (h : Reachable s) (hs : step s a = some s') : Reachable s' :=
  h.trans ⟨[a], by simp [runSched, hs]⟩

/-- Induction with the previous state known to be reachable. -/
theorem reach_ind' {P : St → Prop} (h0 : P init) (hs : ∀ s s', Reachable s → Step s s' → P s → P s') {s : St} (h : Reachable s) : P s := by
  have : Reachable s ∧ P s := by
    refine Reach.inv (P := fun s => Reachable s ∧ P s) ?_ ⟨⟨[], rfl⟩, h0⟩ h
    rintro s a s' ⟨hr, p⟩ hst
    exact ⟨one_step hr hst, hs s s' hr (step_of (all_of hr) hst) p⟩
  exact this.2

theorem step_submit_new {s s' : St} (st : Step s s') {c t h : Nat} (h1 : Obs.submit c t h ∈ s'.log) (h0 : Obs.submit c t h ∉ s.log) :
    ∃ i ws blk ot seen, s.cl i = .submit c h ws blk ∧ resolve s ws = .ok ot ∧ t = ot.getD (pickQueue (s.nq c) seen) ∧ t < s.nq c ∧
      s'.nq = s.nq ∧ (s'.ev h).tid = some t := by
  obtain ⟨al, al', hub, tr, ln, lu⟩ := id st
  cases tr with
  | createCtx j ooo hp => exact absurd h1 h0
  | enqueueBlk j c' x ws t' ot seen hp hr ht hlt =>
    simp at h1
    rcases h1 with ⟨rfl, rfl, rfl⟩ | h1
    · exact ⟨j, ws, true, ot, seen, hp, hr, ht, hlt, by simp, by simp [pushed, setEv_tid]⟩
    · exact absurd h1 h0
  | enqueueRet j c' x ws t' ot seen hp hr ht hlt =>
    simp at h1
    rcases h1 with ⟨rfl, rfl, rfl⟩ | h1
    · exact ⟨j, ws, false, ot, seen, hp, hr, ht, hlt, by simp, by simp [pushed, setEv_tid]⟩
    · exact absurd h1 h0
  | _ => exact absurd (by simpa using h1) h0

theorem tinv {s : St} (h : Reachable s) : TInv s := by
  refine reach_ind' (P := TInv) ?_ ?_ h
  · intro h c t hh; simp [init] at hh
  · intro s s' hr st ti h c t hh
    by_cases h0 : Obs.submit c t h ∈ s.log
    · obtain ⟨h1, h2⟩ := ti h c t h0
      have hp := (place_log st.all.i h c t).2 h0
      have hn := step_nq st ((nqinv hr).iss c (by omega))
      have hu : s.loc h ≠ .unborn := by intro e; rw [e] at hp; simp [place] at hp
      refine ⟨?_, by omega⟩
      rcases step_tid st hu with e | ⟨c', t', e1, e2, e3⟩
      · rw [e]; exact h1
      · rcases st.ln h with l | l
        · exact absurd (l.symm.trans e1) e2
        · have := place_next l hp
          rw [e1] at this; simp [place] at this
          rw [e3, this.2]
    · obtain ⟨_, _, _, _, _, _, _, _, h1, h2, h3⟩ := step_submit_new st hh h0
      exact ⟨h3, by rw [h2]; exact h1⟩

theorem step_relCtx {s s' : St} (st : Step s s') {i c : Nat} (h : s'.cl i = .relCtx c) : s.cl i = .relCtx c ∨ c ∈ s.ctxs := by
  obtain ⟨al, al', hub, tr, ln, lu⟩ := id st
  cases tr with
  | createCtx j ooo hp =>
    simp only [createCtx, ret] at h
    rcases upd_cases h with ⟨_, h⟩ | ⟨_, h⟩
    · simp at h
    · exact Or.inl h
  | relCtx j c' hp hc =>
    simp at h
    rcases upd_cases h with ⟨_, h⟩ | ⟨_, h⟩
    · simp at h; subst h; exact Or.inr hc
    · exact Or.inl h
  | _ =>
    first
      | (simp at h; exact Or.inl h)
      | (simp [pushed] at h
         rcases upd_cases h with ⟨_, h⟩ | ⟨_, h⟩
         · simp at h
         · exact Or.inl h)

theorem relCtx_issued {s : St} (h : Reachable s) : ∀ i c, s.cl i = .relCtx c → c ∈ s.issued := by
  refine reach_ind' (P := fun s => ∀ i c, s.cl i = .relCtx c → c ∈ s.issued) ?_ ?_ h
  · simp [init]
  · intro s s' hr st ih i c hp
    rcases step_relCtx st hp with h | h
    · exact step_issued st (ih i c h)
    · exact step_issued st ((nqinv hr).iss c ((nqinv hr).live c h))

/-- A context whose destructor has run is not in the table. -/
def DInv (s : St) : Prop := ∀ c, s.done c = true → c ∉ s.ctxs ∧ c ∈ s.issued

theorem dinv {s : St} (h : Reachable s) : DInv s := by
  refine reach_ind' (P := DInv) ?_ ?_ h
  · intro c hc; simp [init] at hc
  · intro s s' hr st d c hc
    have hi : ∀ x ∈ s.issued, x ∈ s'.issued := fun x => step_issued st
    have n := nqinv hr
    have hn := submit_nq hr
    have hrel := relCtx_issued hr
    obtain ⟨al, al', hub, tr, ln, lu⟩ := id st
    cases tr with
    | createCtx j ooo hp =>
      have h1 := d c hc
      refine ⟨?_, hi c h1.2⟩
      simp only [createCtx, ret, List.mem_cons, not_or]
      refine ⟨?_, h1.1⟩
      rintro rfl; exact base_fresh al h1.2
    | enqueueUnknown j c' h ws blk hp hr' =>
      simp at hc
      rcases dropCtx_done _ _ _ _ hc with h | ⟨rfl, h⟩
      · have := d c (by simpa using h); simpa using this
      · simp at h
        simp; exact ⟨h, n.iss c (hn j c _ _ _ hp)⟩
    | enqueueBlk j c' h ws t' ot seen hp hr' ht hlt =>
      simp [pushed] at hc
      rcases dropCtx_done _ _ _ _ hc with h | ⟨rfl, h⟩
      · have := d c (by simpa using h); simpa using this
      · simp at h
        simp; exact ⟨h, n.iss c (hn j c _ _ _ hp)⟩
    | enqueueRet j c' h ws t' ot seen hp hr' ht hlt =>
      simp [pushed] at hc
      rcases dropCtx_done _ _ _ _ hc with h | ⟨rfl, h⟩
      · have := d c (by simpa using h); simpa using this
      · simp at h
        simp; exact ⟨h, n.iss c (hn j c _ _ _ hp)⟩
    | relCtx2 j c' hp =>
      simp at hc
      rcases dropCtx_done _ _ _ _ hc with h | ⟨rfl, h⟩
      · have := d c (by simpa using h); simpa using this
      · simp; exact ⟨h, hrel j c hp⟩
    | stop c' t k r hlt hp hh hr' =>
      simp at hc
      rcases dropCtx_done _ _ _ _ hc with h | ⟨rfl, h⟩
      · have := d c (by simpa using h); simpa using this
      · simp; exact ⟨h, n.iss c (by omega)⟩
    | relCtx j c' hp hc' =>
      have := d c (by simpa using hc)
      simp; exact ⟨fun h => absurd h this.1, this.2⟩
    | _ =>
      have := d c (by simpa using hc)
      refine ⟨by simpa using this.1, hi c this.2⟩

end Mcut.Api
