import Verif.Model.Api
import Mathlib.Tactic.Tauto
import Mathlib.Data.List.Nodup
/-! The phase of every command and the fields of its event: the invariant that carries C01, C08-C14 and C45. -/
namespace Mcut.Api

theorem upd2_same {α : Type} (f : Nat → Nat → α) (c t : Nat) (v : α) : upd2 f c t v c t = v := by simp [upd2]

theorem upd2_other {α : Type} (f : Nat → Nat → α) (c t c' t' : Nat) (v : α) (h : ¬(c' = c ∧ t' = t)) :
    upd2 f c t v c' t' = f c' t' := by simp [upd2, h]

/-- The fields of an event that are tied to the phase of its command. -/
def core (e : Ev) : Bool × CStat × Bool × Int × Bool × Bool := (e.user, e.stat, e.fin, e.rt, e.ready, e.called)

/-- The fields of an event in every phase. -/
def expect : Loc → Bool × CStat × Bool × Int × Bool × Bool
  | .unborn | .alloc _ | .leaked | .queued _ _ | .pre _ _ | .skipping _ _ => (false, .submitted, false, 0, false, false)
  | .skipped _ _ => (false, .submitted, false, 0, true, false)
  | .running _ _ | .ran _ _ _ => (false, .running, false, 0, false, false)
  | .fin1 _ _ _ => (false, .running, true, 0, false, false)
  | .fin2 _ _ r | .fin3 _ _ r => (false, .running, true, r, false, false)
  | .fin4 _ _ r => (false, .complete, true, r, false, false)
  | .over _ _ r => (false, .complete, true, r, true, false)
  | .uNew => (true, .submitted, false, 0, false, false)
  | .u1 _ => (true, .running, false, 0, false, true)
  | .u2 _ | .uBad => (true, .running, false, 0, true, true)
  | .u3 _ r => (true, if r = 0 then .complete else .running, false, 0, true, true)
  | .u4 _ r => (true, if r = 0 then .complete else .running, true, 0, true, true)
  | .u5 _ r | .uOver r => (true, if r = 0 then .complete else .running, true, r, true, true)

/-- The thread that is working on the command in this phase. -/
def owner : Loc → Option Actor
  | .alloc i | .u1 i | .u2 i | .u3 i _ | .u4 i _ | .u5 i _ => some (.cl i)
  | .pre c t | .skipping c t | .running c t | .ran c t _ | .fin1 c t _ | .fin2 c t _ | .fin3 c t _ | .fin4 c t _ =>
    some (.mg c t)
  | _ => none

/-- The event a manager works on, and its phase. -/
def expM (c t : Nat) : MPc → Option (Nat × Loc)
  | .idle | .exited => none
  | .lookup k _ | .block k _ _ => some (k.ev, .pre c t)
  | .skip k => some (k.ev, .skipping c t)
  | .run k => some (k.ev, .running c t)
  | .ran k r => some (k.ev, .ran c t r)
  | .fin1 k r => some (k.ev, .fin1 c t r)
  | .fin2 k r => some (k.ev, .fin2 c t r)
  | .fin3 k r => some (k.ev, .fin3 c t r)
  | .fin4 k r => some (k.ev, .fin4 c t r)

/-- The event a client works on, and its phase. -/
def expC (i : Nat) : CPc → Option (Nat × Loc)
  | .submit _ h _ _ => some (h, .alloc i)
  | .sig1 h _ => some (h, .u1 i)
  | .sig2 h _ => some (h, .u2 i)
  | .sig3 h r => some (h, .u3 i r)
  | .sig4 h r => some (h, .u4 i r)
  | .sig5 h r => some (h, .u5 i r)
  | _ => none

/-- The event a thread works on, and its phase. -/
def expA (s : St) : Actor → Option (Nat × Loc)
  | .mg c t => expM c t (s.mgr c t)
  | .cl i => expC i (s.cl i)

theorem expA_owner (s : St) (a : Actor) (h : Nat) (l : Loc) (e : expA s a = some (h, l)) : owner l = some a := by
  cases a with
  | mg c t =>
    simp only [expA] at e
    cases hm : s.mgr c t <;> simp [hm, expM] at e <;> obtain ⟨_, rfl⟩ := e <;> rfl
  | cl i =>
    simp only [expA] at e
    cases hm : s.cl i <;> simp [hm, expC] at e <;> obtain ⟨_, rfl⟩ := e <;> rfl

/-- How phases follow one another. -/
inductive Next : Loc → Loc → Prop
  | alloc (i) : Next .unborn (.alloc i)
  | leak (i) : Next (.alloc i) .leaked
  | queue (i c t) : Next (.alloc i) (.queued c t)
  | pop (c t) : Next (.queued c t) (.pre c t)
  | drop (c t) : Next (.queued c t) (.skipped c t)
  | skip (c t) : Next (.pre c t) (.skipping c t)
  | skipped (c t) : Next (.skipping c t) (.skipped c t)
  | start (c t) : Next (.pre c t) (.running c t)
  | stop (c t r) : Next (.running c t) (.ran c t r)
  | fin1 (c t r) : Next (.ran c t r) (.fin1 c t r)
  | fin2 (c t r) : Next (.fin1 c t r) (.fin2 c t r)
  | fin3 (c t r) : Next (.fin2 c t r) (.fin3 c t r)
  | fin4 (c t r) : Next (.fin3 c t r) (.fin4 c t r)
  | over (c t r) : Next (.fin4 c t r) (.over c t r)
  | uNew : Next .unborn .uNew
  | u1 (i) : Next .uNew (.u1 i)
  | u2 (i) : Next (.u1 i) (.u2 i)
  | u3 (i r) : Next (.u2 i) (.u3 i r)
  | uBad (i) : Next (.u2 i) .uBad
  | u4 (i r) : Next (.u3 i r) (.u4 i r)
  | u5 (i r) : Next (.u4 i r) (.u5 i r)
  | uOver (i r) : Next (.u5 i r) (.uOver r)

theorem Next.ne_unborn {l l' : Loc} (n : Next l l') : l' ≠ .unborn := by
  intro h; subst h; cases n

/-- What a phase change adds to the history. -/
def note (h : Nat) : Loc → Loc → Option Obs
  | .alloc _, .queued c t => some (.submit c t h)
  | .pre c t, .running _ _ => some (.start c t h)
  | .running c t, .ran _ _ r => some (.stop c t h r)
  | .pre c t, .skipping _ _ => some (.skip c t h)
  | .queued c t, .skipped _ _ => some (.skip c t h)
  | _, _ => none

/-- The history of a command, newest first, in each phase. -/
def obsOf (h : Nat) : Loc → List Obs
  | .queued c t | .pre c t => [.submit c t h]
  | .skipping c t | .skipped c t => [.skip c t h, .submit c t h]
  | .running c t => [.start c t h, .submit c t h]
  | .ran c t r | .fin1 c t r | .fin2 c t r | .fin3 c t r | .fin4 c t r | .over c t r =>
    [.stop c t h r, .start c t h, .submit c t h]
  | _ => []

theorem obsOf_next {h : Nat} {l l' : Loc} (n : Next l l') : obsOf h l' = (note h l l').toList ++ obsOf h l := by
  cases n <;> rfl

/-- The command an observation is about. -/
def Obs.subj : Obs → Nat
  | .submit _ _ h | .start _ _ h | .stop _ _ h _ | .skip _ _ h => h

theorem note_subj {h : Nat} {l l' : Loc} {o : Obs} (n : note h l l' = some o) : o.subj = h := by
  unfold note at n
  split at n <;> simp at n <;> subst n <;> rfl

/-- The parts of the state in which phases live: what one step of thread `a` does to them. -/
inductive Eff (s s' : St) (a : Actor) : Prop
  | quiet (loc : s'.loc = s.loc) (queue : s'.queue = s.queue) (waits : s'.waits = s.waits)
      (cnt : s.counter ≤ s'.counter)
      (evs : ∀ h ∈ s'.evs, h ∈ s.evs) (hcore : ∀ x, core (s'.ev x) = core (s.ev x))
      (other : ∀ b, b ≠ a → expA s' b = expA s b) (mine : expA s' a = expA s a)
      (hlog : s'.log = s.log)
  | move (h : Nat) (l : Loc) (loc : s'.loc = upd s.loc h l) (queue : s'.queue = s.queue) (waits : s'.waits = s.waits)
      (cnt : s.counter = s'.counter)
      (evs : ∀ x ∈ s'.evs, x ∈ s.evs) (hcore : ∀ x, x ≠ h → core (s'.ev x) = core (s.ev x)) (coreh : core (s'.ev h) = expect l)
      (other : ∀ b, b ≠ a → expA s' b = expA s b) (mine : expA s' a = (owner l).map (fun _ => (h, l)))
      (own : expA s a = (owner (s.loc h)).map (fun _ => (h, s.loc h))) (nq : ∀ c t, s.loc h ≠ .queued c t)
      (nu : s.loc h ≠ .unborn) (next : Next (s.loc h) l)
      (hlog : s'.log = (note h (s.loc h) l).toList ++ s.log) (nql : ∀ c t, l ≠ .queued c t := by intro _ _; nofun)
  | born (h : Nat) (l : Loc) (hh : h = s.counter) (loc : s'.loc = upd s.loc h l) (queue : s'.queue = s.queue)
      (waits : ∀ x, x ≠ h → s'.waits x = s.waits x)
      (cnt : s'.counter = s.counter + 1) (evs : s'.evs = h :: s.evs)
      (hcore : ∀ x, x ≠ h → core (s'.ev x) = core (s.ev x)) (coreh : core (s'.ev h) = expect l)
      (other : ∀ b, b ≠ a → expA s' b = expA s b) (mine : expA s' a = (owner l).map (fun _ => (h, l))) (free : expA s a = none)
      (next : Next .unborn l) (hlog : s'.log = s.log)
  | push (h : Nat) (c t : Nat) (loc : s'.loc = upd s.loc h (.queued c t))
      (queue : s'.queue = upd2 s.queue c t (s.queue c t ++ [⟨h, s.waits h⟩])) (waits : s'.waits = s.waits)
      (cnt : s.counter = s'.counter) (evs : ∀ x ∈ s'.evs, x ∈ s.evs)
      (hcore : ∀ x, core (s'.ev x) = core (s.ev x))
      (other : ∀ b, b ≠ a → expA s' b = expA s b) (mine : expA s' a = none)
      (own : expA s a = some (h, s.loc h)) (al : ∃ i, s.loc h = .alloc i)
      (hlog : s'.log = .submit c t h :: s.log)
  | pop (k : Task) (l : Loc) (c t : Nat) (rest : List Task) (q : s.queue c t = k :: rest)
      (loc : s'.loc = upd s.loc k.ev l)
      (queue : s'.queue = upd2 s.queue c t rest) (waits : s'.waits = s.waits)
      (cnt : s.counter = s'.counter) (evs : ∀ x ∈ s'.evs, x ∈ s.evs)
      (hcore : ∀ x, x ≠ k.ev → core (s'.ev x) = core (s.ev x)) (coreh : core (s'.ev k.ev) = expect l)
      (other : ∀ b, b ≠ a → expA s' b = expA s b) (mine : expA s' a = (owner l).map (fun _ => (k.ev, l))) (free : expA s a = none)
      (next : Next (.queued c t) l) (hlog : s'.log = (note k.ev (.queued c t) l).toList ++ s.log) (act : a = .mg c t)

/-- The invariant. -/
structure Inv (s : St) : Prop where
  fields : ∀ h, core (s.ev h) = expect (s.loc h)
  pcs : ∀ a h l, expA s a = some (h, l) → s.loc h = l
  q : ∀ c t, ∀ k ∈ s.queue c t, s.loc k.ev = .queued c t ∧ k.waits = s.waits k.ev
  qn : ∀ c t, ((s.queue c t).map Task.ev).Nodup
  fresh : ∀ h, s.counter ≤ h → s.loc h = .unborn
  evsLoc : ∀ h ∈ s.evs, s.loc h ≠ .unborn
  conv : ∀ h a, owner (s.loc h) = some a → expA s a = some (h, s.loc h)
  hist : ∀ h, s.log.filter (fun o => o.subj = h) = obsOf h (s.loc h)

theorem hist_note {s : St} (hi : ∀ h, s.log.filter (fun o => o.subj = h) = obsOf h (s.loc h)) {h : Nat} {l : Loc}
    (n : Next (s.loc h) l) (x : Nat) :
    ((note h (s.loc h) l).toList ++ s.log).filter (fun o => o.subj = x) = obsOf x (upd s.loc h l x) := by
  rw [List.filter_append, hi x]
  by_cases hx : x = h
  · subst hx
    rw [upd_same, obsOf_next n]
    congr 1
    cases hn : note x (s.loc x) l with
    | none => rfl
    | some o => simp [note_subj hn]
  · rw [upd_other _ _ _ _ hx]
    cases hn : note h (s.loc h) l with
    | none => rfl
    | some o => simp [note_subj hn, Ne.symm hx]

theorem Eff.inv {s s' : St} {a : Actor} (e : Eff s s' a) (i : Inv s) : Inv s' := by
  have keep : ∀ (b : Actor) (h h' : Nat) (l l' : Loc), expA s b = some (h', l') →
      (owner (s.loc h) = none ∨ owner (s.loc h) = some a) → b ≠ a → h' ≠ h := by
    intro b h h' l l' eb ho hb he
    subst he
    have h1 := i.pcs b h' l' eb
    have h2 := expA_owner s b h' l' eb
    rw [h1] at ho
    rcases ho with ho | ho <;> rw [h2] at ho <;> simp at ho
    exact hb ho
  cases e with
  | quiet loc queue waits cnt evs hcore other mine hlog =>
    refine ⟨?_, ?_, ?_, ?_, ?_, ?_, ?_, ?_⟩
    · intro h; rw [hcore, loc]; exact i.fields h
    · intro b h l hb
      rw [loc]
      by_cases hba : b = a
      · subst hba; rw [mine] at hb; exact i.pcs _ _ _ hb
      · rw [other b hba] at hb; exact i.pcs _ _ _ hb
    · intro c t k hk; rw [queue] at hk; rw [loc, waits]; exact i.q c t k hk
    · intro c t; rw [queue]; exact i.qn c t
    · intro h hh; rw [loc]; exact i.fresh h (by omega)
    · intro h hh; rw [loc]; exact i.evsLoc h (evs h hh)
    · intro h b hb
      rw [loc] at hb ⊢
      by_cases hba : b = a
      · subst hba; rw [mine]; exact i.conv h b hb
      · rw [other b hba]; exact i.conv h b hb
    · intro h; rw [hlog, loc]; exact i.hist h
  | move h l loc queue waits cnt evs hcore coreh other mine own nq nu next hlog nql =>
    have hown : owner (s.loc h) = none ∨ owner (s.loc h) = some a := by
      cases ho : owner (s.loc h) with
      | none => exact Or.inl rfl
      | some b =>
        rw [ho] at own
        have := expA_owner s a h _ own
        rw [ho] at this; exact Or.inr this
    refine ⟨?_, ?_, ?_, ?_, ?_, ?_, ?_, ?_⟩
    · intro x
      by_cases hx : x = h
      · subst hx; rw [loc, upd_same]; exact coreh
      · rw [loc, upd_other _ _ _ _ hx, hcore x hx]; exact i.fields x
    · intro b h' l' hb
      by_cases hba : b = a
      · subst hba
        rw [mine] at hb
        cases ho : owner l with
        | none => rw [ho] at hb; simp at hb
        | some x => rw [ho] at hb; simp at hb; obtain ⟨rfl, rfl⟩ := hb; rw [loc, upd_same]
      · rw [other b hba] at hb
        rw [loc, upd_other _ _ _ _ (keep b h h' l l' hb hown hba)]; exact i.pcs _ _ _ hb
    · intro c t k hk
      rw [queue] at hk
      have := i.q c t k hk
      have hne : k.ev ≠ h := by intro he; rw [he] at this; exact nq c t this.1
      rw [loc, upd_other _ _ _ _ hne, waits]; exact this
    · intro c t; rw [queue]; exact i.qn c t
    · intro x hx
      have h0 := i.fresh x (by omega)
      have hne : x ≠ h := by intro he; subst he; exact nu h0
      rw [loc, upd_other _ _ _ _ hne]; exact h0
    · intro x hx
      by_cases he : x = h
      · subst he; rw [loc, upd_same]; exact next.ne_unborn
      · rw [loc, upd_other _ _ _ _ he]; exact i.evsLoc x (evs x hx)
    · intro x b hb
      rw [loc] at hb ⊢
      by_cases hx : x = h
      · subst hx
        rw [upd_same] at hb ⊢
        have hba : b = a := by
          have h1 := mine
          rw [hb] at h1
          have := expA_owner s' a _ _ h1
          rw [hb] at this; exact Option.some.inj this
        subst hba; rw [mine, hb]; rfl
      · rw [upd_other _ _ _ _ hx] at hb ⊢
        have hx' := i.conv x b hb
        by_cases hba : b = a
        · subst hba
          exfalso
          rw [own] at hx'
          cases ho : owner (s.loc h) <;> rw [ho] at hx' <;> simp at hx'
          exact hx hx'.1.symm
        · rw [other b hba]; exact hx'
    · intro x
      rw [hlog, loc]
      exact hist_note i.hist next x
  | born h l hh loc queue waits cnt evs hcore coreh other mine free next hlog =>
    have hu : s.loc h = .unborn := i.fresh h (by omega)
    refine ⟨?_, ?_, ?_, ?_, ?_, ?_, ?_, ?_⟩
    · intro x
      by_cases hx : x = h
      · subst hx; rw [loc, upd_same]; exact coreh
      · rw [loc, upd_other _ _ _ _ hx, hcore x hx]; exact i.fields x
    · intro b h' l' hb
      by_cases hba : b = a
      · subst hba
        rw [mine] at hb
        cases ho : owner l with
        | none => rw [ho] at hb; simp at hb
        | some x => rw [ho] at hb; simp at hb; obtain ⟨rfl, rfl⟩ := hb; rw [loc, upd_same]
      · rw [other b hba] at hb
        rw [loc, upd_other _ _ _ _ (keep b h h' l l' hb (Or.inl (by rw [hu]; rfl)) hba)]; exact i.pcs _ _ _ hb
    · intro c t k hk
      rw [queue] at hk
      have := i.q c t k hk
      have hne : k.ev ≠ h := by intro he; rw [he, hu] at this; simp at this
      rw [loc, upd_other _ _ _ _ hne, waits _ hne]; exact this
    · intro c t; rw [queue]; exact i.qn c t
    · intro x hx
      rw [loc, upd_other _ _ _ _ (by omega)]; exact i.fresh x (by omega)
    · intro x hx
      by_cases he : x = h
      · subst he; rw [loc, upd_same]; exact next.ne_unborn
      · rw [loc, upd_other _ _ _ _ he]
        rw [evs] at hx; simp [he] at hx; exact i.evsLoc x hx
    · intro x b hb
      rw [loc] at hb ⊢
      by_cases hx : x = h
      · subst hx
        rw [upd_same] at hb ⊢
        have hba : b = a := by
          have h1 := mine
          rw [hb] at h1
          have := expA_owner s' a _ _ h1
          rw [hb] at this; exact Option.some.inj this
        subst hba; rw [mine, hb]; rfl
      · rw [upd_other _ _ _ _ hx] at hb ⊢
        have hx' := i.conv x b hb
        by_cases hba : b = a
        · subst hba
          exfalso
          rw [free] at hx'; simp at hx'
        · rw [other b hba]; exact hx'
    · intro x
      have hn : note h (s.loc h) l = none := by rw [hu]; rfl
      have := hist_note i.hist (h := h) (l := l) (by rw [hu]; exact next) x
      rw [hlog, loc]; rw [hn] at this; exact this
  | push h c t loc queue waits cnt evs hcore other mine own al hlog =>
    obtain ⟨j, hj⟩ := al
    have hown : owner (s.loc h) = some a := expA_owner s a h _ own
    refine ⟨?_, ?_, ?_, ?_, ?_, ?_, ?_, ?_⟩
    · intro x
      by_cases hx : x = h
      · subst hx; rw [loc, upd_same, hcore, i.fields, hj]; rfl
      · rw [loc, upd_other _ _ _ _ hx, hcore x]; exact i.fields x
    · intro b h' l' hb
      by_cases hba : b = a
      · subst hba; rw [mine] at hb; simp at hb
      · rw [other b hba] at hb
        rw [loc, upd_other _ _ _ _ (keep b h h' l' l' hb (Or.inr hown) hba)]; exact i.pcs _ _ _ hb
    · intro c' t' k hk
      rw [queue] at hk
      have old : ∀ k ∈ s.queue c' t', s'.loc k.ev = .queued c' t' ∧ k.waits = s'.waits k.ev := by
        intro k hk
        have := i.q c' t' k hk
        have hne : k.ev ≠ h := by intro he; rw [he, hj] at this; simp at this
        rw [loc, upd_other _ _ _ _ hne, waits]; exact this
      by_cases hct : c' = c ∧ t' = t
      · obtain ⟨rfl, rfl⟩ := hct
        rw [upd2_same] at hk
        rcases List.mem_append.1 hk with hk | hk
        · exact old k hk
        · simp at hk; subst hk; simp [loc, waits]
      · rw [upd2_other _ _ _ _ _ _ hct] at hk; exact old k hk
    · intro c' t'
      rw [queue]
      by_cases hct : c' = c ∧ t' = t
      · obtain ⟨rfl, rfl⟩ := hct
        rw [upd2_same, List.map_append]
        refine List.Nodup.append (i.qn _ _) (by simp) ?_
        intro x hx hx'
        simp at hx'
        subst hx'
        obtain ⟨k, hk, hke⟩ := List.mem_map.1 hx
        have := (i.q _ _ k hk).1
        rw [hke, hj] at this; simp at this
      · rw [upd2_other _ _ _ _ _ _ hct]; exact i.qn _ _
    · intro x hx
      have h0 := i.fresh x (by omega)
      have hne : x ≠ h := by intro he; rw [he, hj] at h0; simp at h0
      rw [loc, upd_other _ _ _ _ hne]; exact h0
    · intro x hx
      by_cases he : x = h
      · subst he; rw [loc, upd_same]; simp
      · rw [loc, upd_other _ _ _ _ he]; exact i.evsLoc x (evs x hx)
    · intro x b hb
      rw [loc] at hb ⊢
      by_cases hx : x = h
      · subst hx; rw [upd_same] at hb; simp [owner] at hb
      · rw [upd_other _ _ _ _ hx] at hb ⊢
        have hx' := i.conv x b hb
        by_cases hba : b = a
        · subst hba
          rw [own] at hx'; simp at hx'
          exact absurd hx'.1.symm hx
        · rw [other b hba]; exact hx'
    · intro x
      have := hist_note i.hist (h := h) (l := .queued c t) (by rw [hj]; exact .queue j c t) x
      rw [hlog, loc]; rw [hj] at this; exact this
  | pop k l c t rest q loc queue waits cnt evs hcore coreh other mine free next hlog act =>
    have hk := i.q c t k (by rw [q]; simp)
    have hnd := i.qn c t
    rw [q] at hnd
    simp only [List.map_cons, List.nodup_cons] at hnd
    refine ⟨?_, ?_, ?_, ?_, ?_, ?_, ?_, ?_⟩
    · intro x
      by_cases hx : x = k.ev
      · subst hx; rw [loc, upd_same]; exact coreh
      · rw [loc, upd_other _ _ _ _ hx, hcore x hx]; exact i.fields x
    · intro b h' l' hb
      by_cases hba : b = a
      · subst hba
        rw [mine] at hb
        cases ho : owner l with
        | none => rw [ho] at hb; simp at hb
        | some x => rw [ho] at hb; simp at hb; obtain ⟨rfl, rfl⟩ := hb; rw [loc, upd_same]
      · rw [other b hba] at hb
        rw [loc, upd_other _ _ _ _ (keep b k.ev h' l l' hb (Or.inl (by rw [hk.1]; rfl)) hba)]; exact i.pcs _ _ _ hb
    · intro c' t' x hx
      rw [queue] at hx
      by_cases hct : c' = c ∧ t' = t
      · obtain ⟨rfl, rfl⟩ := hct
        rw [upd2_same] at hx
        have hne : x.ev ≠ k.ev := by
          intro he; exact hnd.1 (List.mem_map.2 ⟨x, hx, he⟩)
        rw [loc, upd_other _ _ _ _ hne, waits]; exact i.q _ _ x (by rw [q]; simp [hx])
      · rw [upd2_other _ _ _ _ _ _ hct] at hx
        have hx' := i.q c' t' x hx
        have hne : x.ev ≠ k.ev := by
          intro he; rw [he, hk.1] at hx'
          have := hx'.1
          simp at this
          exact hct ⟨this.1.symm, this.2.symm⟩
        rw [loc, upd_other _ _ _ _ hne, waits]; exact hx'
    · intro c' t'
      rw [queue]
      by_cases hct : c' = c ∧ t' = t
      · obtain ⟨rfl, rfl⟩ := hct; rw [upd2_same]; exact hnd.2
      · rw [upd2_other _ _ _ _ _ _ hct]; exact i.qn _ _
    · intro x hx
      have h0 := i.fresh x (by omega)
      have hne : x ≠ k.ev := by intro he; rw [he, hk.1] at h0; simp at h0
      rw [loc, upd_other _ _ _ _ hne]; exact h0
    · intro x hx
      by_cases he : x = k.ev
      · subst he; rw [loc, upd_same]; exact next.ne_unborn
      · rw [loc, upd_other _ _ _ _ he]; exact i.evsLoc x (evs x hx)
    · intro x b hb
      rw [loc] at hb ⊢
      by_cases hx : x = k.ev
      · subst hx
        rw [upd_same] at hb ⊢
        have hba : b = a := by
          have h1 := mine
          rw [hb] at h1
          have := expA_owner s' a _ _ h1
          rw [hb] at this; exact Option.some.inj this
        subst hba; rw [mine, hb]; rfl
      · rw [upd_other _ _ _ _ hx] at hb ⊢
        have hx' := i.conv x b hb
        by_cases hba : b = a
        · subst hba
          exfalso
          rw [free] at hx'; simp at hx'
        · rw [other b hba]; exact hx'
    · intro x
      have := hist_note i.hist (h := k.ev) (l := l) (by rw [hk.1]; exact next) x
      rw [hlog, loc]; rw [hk.1] at this; exact this

/-! ## Frame lemmas: what the helper operations leave alone. -/

theorem destroyEv_frame (s : St) (h : Nat) :
    (destroyEv s h).loc = s.loc ∧ (destroyEv s h).queue = s.queue ∧ (destroyEv s h).waits = s.waits ∧
    (destroyEv s h).counter = s.counter ∧ (destroyEv s h).evs = s.evs ∧ (destroyEv s h).mgr = s.mgr ∧
    (destroyEv s h).cl = s.cl ∧ (∀ x, core ((destroyEv s h).ev x) = core (s.ev x)) ∧
    (destroyEv s h).returned = s.returned ∧ (destroyEv s h).issued = s.issued ∧ (destroyEv s h).ccs = s.ccs ∧
    (destroyEv s h).nq = s.nq ∧ (destroyEv s h).ctxs = s.ctxs ∧ (destroyEv s h).ub = s.ub ∧
    (destroyEv s h).inited = s.inited ∧ (destroyEv s h).done = s.done ∧ (destroyEv s h).ctxHold = s.ctxHold ∧
    (destroyEv s h).regs = s.regs ∧ (destroyEv s h).log = s.log ∧ (destroyEv s h).rets = s.rets ∧ (destroyEv s h).why = s.why ∧ (∀ x, ((destroyEv s h).ev x).tid = (s.ev x).tid) := by
  have hc : ∀ x, core (upd s.ev h { s.ev h with dead := true } x) = core (s.ev x) := by
    intro x; by_cases hx : x = h
    · subst hx; simp [core]
    · rw [upd_other _ _ _ _ hx]
  have ht : ∀ x, (upd s.ev h { s.ev h with dead := true } x).tid = (s.ev x).tid := by
    intro x; by_cases hx : x = h
    · subst hx; simp
    · rw [upd_other _ _ _ _ hx]
  unfold destroyEv
  simp only
  split
  · split <;> simp [obsCb, hc, ht]
  · simp [hc, ht]

theorem reapEv_frame (s : St) (h : Nat) :
    (reapEv s h).loc = s.loc ∧ (reapEv s h).queue = s.queue ∧ (reapEv s h).waits = s.waits ∧
    (reapEv s h).counter = s.counter ∧ (reapEv s h).evs = s.evs ∧ (reapEv s h).mgr = s.mgr ∧
    (reapEv s h).cl = s.cl ∧ (∀ x, core ((reapEv s h).ev x) = core (s.ev x)) ∧
    (reapEv s h).returned = s.returned ∧ (reapEv s h).issued = s.issued ∧ (reapEv s h).ccs = s.ccs ∧
    (reapEv s h).nq = s.nq ∧ (reapEv s h).ctxs = s.ctxs ∧ (reapEv s h).ub = s.ub ∧
    (reapEv s h).inited = s.inited ∧ (reapEv s h).done = s.done ∧ (reapEv s h).ctxHold = s.ctxHold ∧
    (reapEv s h).regs = s.regs ∧ (reapEv s h).log = s.log ∧ (reapEv s h).rets = s.rets ∧ (reapEv s h).why = s.why ∧ (∀ x, ((reapEv s h).ev x).tid = (s.ev x).tid) := by
  unfold reapEv
  split
  · exact destroyEv_frame s h
  · simp

theorem dropEv_frame (s : St) (h : Nat) (a : Actor) :
    (dropEv s h a).loc = s.loc ∧ (dropEv s h a).queue = s.queue ∧ (dropEv s h a).waits = s.waits ∧
    (dropEv s h a).counter = s.counter ∧ (dropEv s h a).evs = s.evs ∧ (dropEv s h a).mgr = s.mgr ∧
    (dropEv s h a).cl = s.cl ∧ (∀ x, core ((dropEv s h a).ev x) = core (s.ev x)) ∧
    (dropEv s h a).returned = s.returned ∧ (dropEv s h a).issued = s.issued ∧ (dropEv s h a).ccs = s.ccs ∧
    (dropEv s h a).nq = s.nq ∧ (dropEv s h a).ctxs = s.ctxs ∧ (dropEv s h a).ub = s.ub ∧
    (dropEv s h a).inited = s.inited ∧ (dropEv s h a).done = s.done ∧ (dropEv s h a).ctxHold = s.ctxHold ∧
    (dropEv s h a).regs = s.regs ∧ (dropEv s h a).log = s.log ∧ (dropEv s h a).rets = s.rets ∧ (dropEv s h a).why = s.why ∧ (∀ x, ((dropEv s h a).ev x).tid = (s.ev x).tid) := by
  have hc : ∀ x, core (upd s.ev h { s.ev h with hold := (s.ev h).hold.erase a } x) = core (s.ev x) := by
    intro x; by_cases hx : x = h
    · subst hx; simp [core]
    · rw [upd_other _ _ _ _ hx]
  have ht : ∀ x, (upd s.ev h { s.ev h with hold := (s.ev h).hold.erase a } x).tid = (s.ev x).tid := by
    intro x; by_cases hx : x = h
    · subst hx; simp
    · rw [upd_other _ _ _ _ hx]
  have := reapEv_frame { s with ev := upd s.ev h { s.ev h with hold := (s.ev h).hold.erase a } } h
  unfold dropEv
  simpa only [hc, ht] using this

theorem removeEv_frame (s : St) (h : Nat) :
    (removeEv s h).loc = s.loc ∧ (removeEv s h).queue = s.queue ∧ (removeEv s h).waits = s.waits ∧
    (removeEv s h).counter = s.counter ∧ (removeEv s h).evs = s.evs.filter (· ≠ h) ∧ (removeEv s h).mgr = s.mgr ∧
    (removeEv s h).cl = s.cl ∧ (∀ x, core ((removeEv s h).ev x) = core (s.ev x)) ∧
    (removeEv s h).returned = s.returned ∧ (removeEv s h).issued = s.issued ∧ (removeEv s h).ccs = s.ccs ∧
    (removeEv s h).nq = s.nq ∧ (removeEv s h).ctxs = s.ctxs ∧ (removeEv s h).ub = s.ub ∧
    (removeEv s h).inited = s.inited ∧ (removeEv s h).done = s.done ∧ (removeEv s h).ctxHold = s.ctxHold ∧
    (removeEv s h).regs = s.regs ∧ (removeEv s h).log = s.log ∧ (removeEv s h).rets = s.rets ∧ (removeEv s h).why = s.why ∧ (∀ x, ((removeEv s h).ev x).tid = (s.ev x).tid) :=
  reapEv_frame { s with evs := s.evs.filter (· ≠ h) } h

theorem dropCtx_frame (s : St) (c : Nat) (a : Actor) :
    (dropCtx s c a).loc = s.loc ∧ (dropCtx s c a).queue = s.queue ∧ (dropCtx s c a).waits = s.waits ∧
    (dropCtx s c a).counter = s.counter ∧ (dropCtx s c a).evs = s.evs ∧ (dropCtx s c a).mgr = s.mgr ∧
    (dropCtx s c a).cl = s.cl ∧ (dropCtx s c a).ev = s.ev ∧
    (dropCtx s c a).returned = s.returned ∧ (dropCtx s c a).issued = s.issued ∧ (dropCtx s c a).ccs = s.ccs ∧
    (dropCtx s c a).nq = s.nq ∧ (dropCtx s c a).ctxs = s.ctxs ∧
    (dropCtx s c a).inited = s.inited ∧ (dropCtx s c a).log = s.log ∧ (dropCtx s c a).regs = s.regs ∧
    (dropCtx s c a).rets = s.rets ∧ (dropCtx s c a).why = s.why ∧ (dropCtx s c a).cbs = s.cbs := by
  unfold dropCtx
  simp only
  split
  · cases a <;> simp [bad]
  · simp

theorem holdEv_core (s : St) (h : Nat) (a : Actor) (x : Nat) : core ((holdEv s h a).ev x) = core (s.ev x) := by
  unfold holdEv
  by_cases hx : x = h
  · subst hx; simp [core]
  · simp only; rw [upd_other _ _ _ _ hx]

theorem notifyCb_frame (s : St) (h : Nat) (l : Loc) :
    (notifyCb s h l).loc = upd s.loc h l ∧ (notifyCb s h l).queue = s.queue ∧ (notifyCb s h l).waits = s.waits ∧
    (notifyCb s h l).counter = s.counter ∧ (notifyCb s h l).evs = s.evs ∧ (notifyCb s h l).mgr = s.mgr ∧
    (notifyCb s h l).cl = s.cl ∧ (∀ x, core ((notifyCb s h l).ev x) = core (s.ev x)) ∧
    (notifyCb s h l).returned = s.returned ∧ (notifyCb s h l).issued = s.issued ∧ (notifyCb s h l).ccs = s.ccs ∧
    (notifyCb s h l).nq = s.nq ∧ (notifyCb s h l).ctxs = s.ctxs ∧ (notifyCb s h l).ub = s.ub ∧
    (notifyCb s h l).inited = s.inited ∧ (notifyCb s h l).done = s.done ∧ (notifyCb s h l).ctxHold = s.ctxHold ∧
    (notifyCb s h l).regs = s.regs ∧ (notifyCb s h l).log = s.log ∧ (notifyCb s h l).rets = s.rets ∧ (notifyCb s h l).why = s.why ∧ (∀ x, ((notifyCb s h l).ev x).tid = (s.ev x).tid) ∧
    (∀ x, ((notifyCb s h l).ev x).hold = (s.ev x).hold) ∧ (∀ x, ((notifyCb s h l).ev x).dead = (s.ev x).dead) := by
  have hc : ∀ x, core (upd s.ev h { s.ev h with inv := true } x) = core (s.ev x) := by
    intro x; by_cases hx : x = h
    · subst hx; simp [core]
    · rw [upd_other _ _ _ _ hx]
  have hu : ∀ x, upd s.ev h (s.ev h) x = s.ev x := by
    intro x; by_cases hx : x = h
    · subst hx; simp
    · rw [upd_other _ _ _ _ hx]
  have hf : ∀ {β : Type} (f : Ev → β) (_ : f { s.ev h with inv := true } = f (s.ev h)) (x : Nat),
      f (upd s.ev h { s.ev h with inv := true } x) = f (s.ev x) := by
    intro β f hf x; by_cases hx : x = h
    · subst hx; simpa using hf
    · rw [upd_other _ _ _ _ hx]
  unfold notifyCb
  simp only
  split
  · split
    · simp only [obsCb, setEv]
      exact ⟨trivial, trivial, trivial, trivial, trivial, trivial, trivial, hc, trivial, trivial, trivial, trivial, trivial,
        trivial, trivial, trivial, trivial, trivial, trivial, trivial, trivial, hf Ev.tid rfl, hf Ev.hold rfl, hf Ev.dead rfl⟩
    · simp [setEv, hu]
  · simp [setEv, hu]

theorem upd_self {α : Type} (f : Nat → α) (i : Nat) : upd f i (f i) = f := by
  funext j; by_cases h : j = i
  · subst h; simp
  · rw [upd_other _ _ _ _ h]

theorem setCb_frame (s : St) (h : Nat) :
    (setCb s h).loc = s.loc ∧ (setCb s h).queue = s.queue ∧ (setCb s h).waits = s.waits ∧
    (setCb s h).counter = s.counter ∧ (setCb s h).evs = s.evs ∧ (setCb s h).mgr = s.mgr ∧
    (setCb s h).cl = s.cl ∧ (∀ x, core ((setCb s h).ev x) = core (s.ev x)) ∧
    (setCb s h).returned = s.returned ∧ (setCb s h).issued = s.issued ∧ (setCb s h).ccs = s.ccs ∧
    (setCb s h).nq = s.nq ∧ (setCb s h).ctxs = s.ctxs ∧ (setCb s h).ub = s.ub ∧
    (setCb s h).inited = s.inited ∧ (setCb s h).done = s.done ∧ (setCb s h).ctxHold = s.ctxHold ∧
    (setCb s h).regs = s.regs + 1 ∧ (setCb s h).log = s.log ∧ (setCb s h).rets = s.rets ∧ (setCb s h).why = s.why ∧ (∀ x, ((setCb s h).ev x).tid = (s.ev x).tid) ∧
    (∀ x, ((setCb s h).ev x).hold = (s.ev x).hold) ∧ (∀ x, ((setCb s h).ev x).dead = (s.ev x).dead) := by
  have hf : ∀ {β : Type} (f : Ev → β) (b : Bool) (_ : f { s.ev h with fn := some s.regs, inv := b } = f (s.ev h)) (x : Nat),
      f (upd s.ev h { s.ev h with fn := some s.regs, inv := b } x) = f (s.ev x) := by
    intro β f b hf x; by_cases hx : x = h
    · subst hx; simpa using hf
    · rw [upd_other _ _ _ _ hx]
  unfold setCb
  simp only
  split
  · simp only [obsCb, setEv, upd_self]
    exact ⟨trivial, trivial, trivial, trivial, trivial, trivial, trivial, hf core true rfl, trivial, trivial, trivial, trivial, trivial,
        trivial, trivial, trivial, trivial, trivial, trivial, trivial, trivial, hf Ev.tid true rfl, hf Ev.hold true rfl, hf Ev.dead true rfl⟩
  · simp only [obsCb, setEv, upd_self]
    exact ⟨trivial, trivial, trivial, trivial, trivial, trivial, trivial, hf core false rfl, trivial, trivial, trivial, trivial, trivial,
        trivial, trivial, trivial, trivial, trivial, trivial, trivial, trivial, hf Ev.tid false rfl, hf Ev.hold false rfl, hf Ev.dead false rfl⟩

end Mcut.Api
