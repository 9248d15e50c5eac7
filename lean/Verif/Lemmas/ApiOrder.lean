import Verif.Lemmas.ApiLog
/-! Submission order in the API model. -/
namespace Mcut.Api

/-- The commands pushed to one queue, in this order (of a history given newest first). -/
def subs (c t : Nat) (l : List Obs) : List Nat :=
  l.reverse.filterMap fun o => match o with
    | .submit c' t' h => if c' = c ∧ t' = t then some h else none
    | _ => none

theorem subs_cons (c t : Nat) (o : Obs) (l : List Obs) : subs c t (o :: l) = subs c t l ++ (match o with
    | .submit c' t' h => if c' = c ∧ t' = t then [h] else []
    | _ => []) := by
  unfold subs
  rw [List.reverse_cons, List.filterMap_append]
  congr 1
  cases o <;> simp
  split <;> simp [*]

/-- The command a manager has taken from its queue. -/
def cur (s : St) (c t : Nat) : List Nat := ((expA s (.mg c t)).map Prod.fst).toList

/-- Finished with for good, from one queue. -/
def gone (c t : Nat) (l : Loc) : Prop := l = .skipped c t ∨ ∃ r, l = .over c t r

/-- The commands of a queue: those finished, the one in work, those waiting, in the order of submission. -/
def QInv (s : St) : Prop :=
  ∀ c t, ∃ P, subs c t s.log = P ++ cur s c t ++ (s.queue c t).map Task.ev ∧ ∀ h ∈ P, gone c t (s.loc h)

theorem gone_next {c t : Nat} {l l' : Loc} (h : gone c t l) (n : Next l l') : False := by
  rcases h with rfl | ⟨r, rfl⟩ <;> cases n

theorem gone_of {l l' : Loc} {c t : Nat} (n : Next l l') (h : owner l = some (.mg c t)) (h' : owner l' = none) : gone c t l' := by
  cases n <;> simp [owner] at h h' <;> obtain ⟨rfl, rfl⟩ := h
  · exact Or.inl rfl
  · exact Or.inr ⟨_, rfl⟩

theorem owner_next {l l' : Loc} {a : Actor} (n : Next l l') (h : owner l = some a) (h' : owner l' ≠ none) : owner l' = some a := by
  cases n <;> simp [owner] at h h' ⊢ <;> exact h

theorem note_notSubmit {h : Nat} {l l' : Loc} (n : Next l l') (h1 : ∀ c t, l' ≠ .queued c t) (c t : Nat) :
    ∀ L, subs c t ((note h l l').toList ++ L) = subs c t L := by
  intro L
  cases n <;> simp [note, subs_cons] at h1 ⊢

theorem subs_same {c t : Nat} {o : Obs} {L : List Obs} (h : ∀ x, o ≠ .submit c t x) : subs c t (o :: L) = subs c t L := by
  rw [subs_cons]
  cases o with
  | submit c' t' x =>
    by_cases e : c' = c ∧ t' = t
    · obtain ⟨rfl, rfl⟩ := e; exact absurd rfl (h x)
    · simp [e]
  | _ => simp

theorem Eff.qinv {s s' : St} {a : Actor} (e : Eff s s' a) (i : Inv s) (q : QInv s) : QInv s' := by
  cases e with
  | quiet loc queue waits cnt evs hcore other mine hlog =>
    intro c t
    have : expA s' (.mg c t) = expA s (.mg c t) := by
      by_cases h : Actor.mg c t = a
      · rw [h]; exact mine
      · exact other _ h
    unfold cur
    rw [hlog, queue, loc, this]; exact q c t
  | born h l hh loc queue waits cnt evs hcore coreh other mine free next hlog =>
    intro c t
    obtain ⟨P, h1, h2⟩ := q c t
    refine ⟨P, ?_, ?_⟩
    · have : expA s' (.mg c t) = expA s (.mg c t) := by
        by_cases h : Actor.mg c t = a
        · subst h; rw [free, mine]; cases next <;> simp [owner]
          have := expA_owner s' (.mg c t) _ _ mine
          simp [owner] at this
        · exact other _ h
      unfold cur
      rw [hlog, queue, this]; exact h1
    · intro x hx
      by_cases hxh : x = h
      · subst hxh
        have := h2 x hx
        rw [i.fresh x (by omega)] at this
        rcases this with h | ⟨r, h⟩ <;> simp at h
      · rw [loc, upd_other _ _ _ _ hxh]; exact h2 x hx
  | push h c0 t0 loc queue waits cnt evs hcore other mine own al hlog =>
    intro c t
    obtain ⟨P, h1, h2⟩ := q c t
    have hne : ∀ c t, a ≠ .mg c t := by
      rintro c t rfl
      have := expA_owner s _ _ _ own
      obtain ⟨j, hj⟩ := al
      rw [hj] at this; simp [owner] at this
    refine ⟨P, ?_, ?_⟩
    · unfold cur
      rw [other _ (hne c t).symm, hlog, subs_cons, h1, queue]
      by_cases e : c0 = c ∧ t0 = t
      · obtain ⟨rfl, rfl⟩ := e
        rw [upd2_same]; simp [cur]
      · rw [upd2_other _ _ _ _ _ _ (by rintro ⟨rfl, rfl⟩; exact e ⟨rfl, rfl⟩)]; simp [e, cur]
    · intro x hx
      by_cases hxh : x = h
      · subst hxh
        obtain ⟨j, hj⟩ := al
        have := h2 x hx
        rw [hj] at this
        rcases this with h | ⟨r, h⟩ <;> simp at h
      · rw [loc, upd_other _ _ _ _ hxh]; exact h2 x hx
  | pop k l c0 t0 rest hq loc queue waits cnt evs hcore coreh other mine free next hlog act =>
    subst act
    intro c t
    obtain ⟨P, h1, h2⟩ := q c t
    have hl := (i.q c0 t0 k (by rw [hq]; simp)).1
    have hlog' : subs c t s'.log = subs c t s.log := by
      rw [hlog]; exact note_notSubmit next (by intro c t; cases next <;> simp) c t _
    have hP : ∀ x ∈ P, gone c t (s'.loc x) := by
      intro x hx
      by_cases hxh : x = k.ev
      · subst hxh
        have := h2 _ hx
        rw [hl] at this
        rcases this with h | ⟨r, h⟩ <;> simp at h
      · rw [loc, upd_other _ _ _ _ hxh]; exact h2 x hx
    by_cases e : c0 = c ∧ t0 = t
    · obtain ⟨rfl, rfl⟩ := e
      have hc : cur s c0 t0 = [] := by unfold cur; rw [free]; rfl
      rw [hc, hq] at h1
      cases ho : owner l with
      | none =>
        refine ⟨P ++ [k.ev], ?_, ?_⟩
        · rw [hlog', h1, queue, upd2_same]
          unfold cur; rw [mine, ho]; simp
        · intro x hx
          rcases List.mem_append.1 hx with hx | hx
          · exact hP x hx
          · simp at hx; subst hx
            rw [loc, upd_same]
            cases next <;> simp [owner] at ho
            exact Or.inl rfl
      | some b =>
        refine ⟨P, ?_, hP⟩
        rw [hlog', h1, queue, upd2_same]
        unfold cur; rw [mine, ho]; simp
    · refine ⟨P, ?_, hP⟩
      unfold cur
      rw [other _ (by simp; rintro rfl rfl; exact e ⟨rfl, rfl⟩), hlog', h1, queue,
        upd2_other _ _ _ _ _ _ (by rintro ⟨rfl, rfl⟩; exact e ⟨rfl, rfl⟩)]
      rfl
  | move h l loc queue waits cnt evs hcore coreh other mine own nq nu next hlog nql =>
    intro c t
    obtain ⟨P, h1, h2⟩ := q c t
    have hP : ∀ x ∈ P, gone c t (s'.loc x) := by
      intro x hx
      by_cases hxh : x = h
      · subst hxh
        exact absurd (gone_next (h2 x hx) next) id
      · rw [loc, upd_other _ _ _ _ hxh]; exact h2 x hx
    have hlog' : subs c t s'.log = subs c t s.log := by
      rw [hlog]; exact note_notSubmit next nql c t _
    by_cases e : a = .mg c t
    · subst e
      cases ho : owner (s.loc h) with
      | none =>
        rw [ho] at own
        cases ho' : owner l with
        | none =>
          refine ⟨P, ?_, hP⟩
          rw [ho'] at mine
          unfold cur at h1 ⊢
          rw [hlog', h1, queue, mine, own]
          simp
        | some b =>
          rw [ho'] at mine
          have hb := expA_owner s' (.mg c t) _ _ mine
          rw [ho'] at hb
          exfalso
          generalize s.loc h = l0 at next ho nu nq
          cases next <;> simp [owner] at ho ho' hb nu nq
          subst hb; simp at ho'
      | some b =>
        rw [ho] at own
        have hb := expA_owner s (.mg c t) _ _ own
        cases ho' : owner l with
        | none =>
          rw [ho'] at mine
          refine ⟨P ++ [h], ?_, ?_⟩
          · unfold cur at h1 ⊢
            rw [hlog', h1, queue, mine, own]
            simp
          · intro x hx
            rcases List.mem_append.1 hx with hx | hx
            · exact hP x hx
            · simp at hx; subst hx
              rw [loc, upd_same]; exact gone_of next hb ho'
        | some b' =>
          rw [ho'] at mine
          refine ⟨P, ?_, hP⟩
          unfold cur at h1 ⊢
          rw [hlog', h1, queue, mine, own]
          simp
    · refine ⟨P, ?_, hP⟩
      unfold cur
      rw [other _ (Ne.symm e), hlog', h1, queue]
      rfl

theorem qinv {s : St} (h : Reachable s) : QInv s := by
  have : All s ∧ QInv s := by
    refine Reach.inv (P := fun s => All s ∧ QInv s) ?_ ?_ h
    · rintro s a s' ⟨al, q⟩ hst
      have st := step_of al hst
      have hc : s.inited = true ∨ s.counter = 0 := by
        cases hi : s.inited with
        | true => exact Or.inl rfl
        | false => exact Or.inr (al.i2.ini hi).1
      obtain ⟨b, e⟩ := step_eff s s' a al.i al.i2.so hc hst
      exact ⟨st.all', e.qinv al.i q⟩
    · refine ⟨all_init, ?_⟩
      intro c t
      exact ⟨[], by simp [subs, init, cur, expA, expM], by simp⟩
  exact this.2

/-- The submission of one command. -/
def isSub (x : Nat) : Obs → Bool
  | .submit _ _ y => y = x
  | _ => false

/-- Nothing is submitted twice. -/
theorem subs_nodup {s : St} (h : Reachable s) (c t : Nat) : (subs c t s.log).Nodup := by
  have i := (all_of h).i
  rw [List.nodup_iff_count_le_one]
  intro x
  have h1 : (subs c t s.log).count x ≤ (s.log.filter (isSub x)).length := by
    generalize s.log = L
    induction L with
    | nil => simp [subs]
    | cons o L ih =>
      rw [subs_cons, List.count_append, List.filter_cons]
      cases o with
      | submit c' t' y =>
        by_cases e : c' = c ∧ t' = t <;> by_cases hy : y = x <;> simp [e, hy, isSub] at ih ⊢ <;> omega
      | _ => simp [isSub] at ih ⊢; exact ih
  refine Nat.le_trans h1 ?_
  have h2 : s.log.filter (isSub x) = (s.log.filter (fun o => o.subj = x)).filter (isSub x) := by
    rw [List.filter_filter]
    congr 1
    funext o
    cases o <;> simp [isSub, Obs.subj] <;> simp (config := { contextual := true })
  rw [h2, i.hist x]
  generalize s.loc x = l
  cases l <;> simp [obsOf, List.filter_cons, isSub]

theorem mem_subs {c t h : Nat} {L : List Obs} : h ∈ subs c t L ↔ Obs.submit c t h ∈ L := by
  unfold subs
  simp only [List.mem_filterMap, List.mem_reverse]
  constructor
  · rintro ⟨o, ho, e⟩
    cases o with
    | submit c' t' y =>
      simp only at e
      split at e
      · rename_i hh; obtain ⟨rfl, rfl⟩ := hh; simp at e; subst e; exact ho
      · simp at e
    | _ => simp at e
  · intro h1; exact ⟨_, h1, by simp⟩

/-- When a command of a queue is in work, every command submitted to that queue before it is finished with. -/
theorem earlier_gone {s : St} (hr : Reachable s) {c t h : Nat} (hb : owner (s.loc h) = some (.mg c t)) {x y : List Obs} {h' : Nat}
    (hl : s.log = x ++ .submit c t h :: y) (hy : Obs.submit c t h' ∈ y) : gone c t (s.loc h') := by
  have i := (all_of hr).i
  obtain ⟨P, h1, h2⟩ := qinv hr c t
  have hc : cur s c t = [h] := by unfold cur; rw [i.conv h _ hb]; rfl
  have hs : subs c t s.log = subs c t y ++ [h] ++ subs c t x := by
    rw [hl]
    unfold subs
    simp
  have hn := subs_nodup hr c t
  rw [hc] at h1
  have hp : h' ∈ subs c t y := mem_subs.2 hy
  have hnP : h ∉ P := by
    rw [h1] at hn
    intro hm
    have := (List.nodup_append.1 (List.nodup_append.1 hn).1).2.2
    exact this h hm h (by simp) rfl
  rw [h1] at hs
  have key : ∀ (A B X Y : List Nat), h ∉ A → A ++ [h] ++ X = B ++ [h] ++ Y → h ∉ B → A = B := by
    intro A
    induction A with
    | nil =>
      intro B X Y _ e hB
      cases B with
      | nil => rfl
      | cons b B => simp at e hB; exact absurd e.1 hB.1
    | cons a A ih =>
      intro B X Y hA e hB
      cases B with
      | nil => simp at e hA; exact absurd e.1.symm hA.1
      | cons b B =>
        simp at e hA hB
        rw [e.1, ih B X Y hA.2 (by simpa using e.2) hB.2]
  have hny : h ∉ subs c t y := by
    rw [hl] at hn
    have e2 : subs c t (x ++ .submit c t h :: y) = subs c t y ++ [h] ++ subs c t x := by unfold subs; simp
    rw [e2] at hn
    intro hm
    have := (List.nodup_append.1 (List.nodup_append.1 hn).1).2.2
    exact this h hm h (by simp) rfl
  have := key P _ _ _ hnP hs hny
  rw [← this] at hp
  exact h2 h' hp

end Mcut.Api
