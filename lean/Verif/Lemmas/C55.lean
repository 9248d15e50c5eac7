import Verif.Spec.C55
import Verif.Lemmas.C54

/-! Helper lemmas for `Props/C55.lean`. -/
namespace Mcut.Api

theorem unborn_stays {s s' : St} (hr : Reachable s) (h' : Reach step s s') {w : Nat} (hc : w < s.counter) (hl : s.loc w = .unborn) :
    s'.loc w = .unborn := by
  have : (w < s.counter ∧ s.loc w = .unborn) → (w < s'.counter ∧ s'.loc w = .unborn) := by
    refine reach_rel (R := fun s s' => (w < s.counter ∧ s.loc w = .unborn) → (w < s'.counter ∧ s'.loc w = .unborn)) (fun _ h => h)
      (fun _ _ _ _ _ h1 h2 h => h2 (h1 h)) ?_ hr h'
    intro s s' st ⟨h1, h2⟩
    obtain ⟨al, al', hub, tr, ln, lu⟩ := id st
    cases tr with
    | createCtx i ooo hp =>
      refine ⟨?_, by simpa [createCtx] using h2⟩
      simp only [createCtx, ret, base]
      have := al.i2.ini
      cases hi : s.inited with
      | true => simp; omega
      | false => have := (this hi).1; omega
    | createUser i c hp hc =>
      refine ⟨by simp [ret]; omega, ?_⟩
      simp only [ret, setEv]
      rw [upd_other _ _ _ _ (by omega)]; exact h2
    | enqueue i c ws blk hp hw hb hc =>
      refine ⟨by simp [setC, setEv]; omega, ?_⟩
      simp only [setC, setEv]
      rw [upd_other _ _ _ _ (by omega)]; exact h2
    | newCC c t k hn hp hh => exact ⟨by simp; omega, h2⟩
    | _ => exact ⟨by simpa [pushed] using h1, lu (by simp [pushed]) _ h2⟩
  exact (this ⟨hc, hl⟩).2

/-- The phases of a submitted command. -/
theorem submit_phase {s : St} (i : Inv s) {c t h : Nat} (hm : Obs.submit c t h ∈ s.log) :
    s.loc h = .queued c t ∨ owner (s.loc h) = some (.mg c t) ∨ gone c t (s.loc h) := by
  have := mem_obs i hm
  simp only [Obs.subj] at this
  unfold gone
  generalize s.loc h = l at this ⊢
  cases l <;> simp [obsOf] at this <;> obtain ⟨rfl, rfl⟩ := this <;> simp [owner]

theorem ready_gone {s : St} (i : Inv s) {c t h : Nat} (g : gone c t (s.loc h)) : (s.ev h).ready = true := by
  have := i.fields h
  rcases g with g | ⟨r, g⟩ <;> rw [g] at this <;> simp [core, expect] at this <;> simp [this]

theorem ready_busy {s : St} (i : Inv s) {c t h : Nat} (g : s.loc h = .queued c t ∨ owner (s.loc h) = some (.mg c t)) : (s.ev h).ready = false := by
  have hf := i.fields h
  rcases g with g | g
  · rw [g] at hf; simp [core, expect] at hf; simp [hf]
  · revert g hf
    generalize s.loc h = l
    intro hf g
    cases l <;> simp [owner] at g <;> simp [core, expect] at hf <;> simp [hf]

theorem user_loc {s : St} (i : Inv s) {h : Nat} : (s.ev h).user = isUser (s.loc h) := by
  have hf := i.fields h
  revert hf
  generalize s.loc h = l
  intro hf
  cases l <;> simp [core, expect] at hf <;> simp [hf, isUser]

theorem ready_next {l l' : Loc} (n : Next l l') (h : (expect l).2.2.2.2.1 = true) : (expect l').2.2.2.2.1 = true := by
  cases n <;> simp [expect] at h ⊢

theorem ready_expect {s : St} (i : Inv s) (h : Nat) : (s.ev h).ready = (expect (s.loc h)).2.2.2.2.1 := by
  rw [← i.fields h]; rfl

theorem ready_step {s s' : St} (st : Step s s') {h : Nat} (hr : (s.ev h).ready = true) : (s'.ev h).ready = true := by
  rw [ready_expect st.all.i] at hr
  rw [ready_expect st.all'.i]
  rcases st.ln h with l | l
  · rw [l]; exact hr
  · exact ready_next l hr

/-- As `log_split`, with the step known to be one of the system. -/
theorem log_split' {s : St} (hr : Reachable s) (a b : List Obs) (o : Obs) (h : s.log = a ++ o :: b) :
    ∃ s0 s1, Reachable s0 ∧ Reach step s0 s1 ∧ Step s0 s1 ∧ s0.log = b ∧ s1.log = o :: b ∧ Reach step s1 s := by
  have one : ∀ {s s' : St} {x : Act}, step s x = some s' → Reach step s s' := by
    intro s s' x hx; exact ⟨[x], by simp [runSched, hx]⟩
  have tr : ∀ {s t u : St}, Reach step s t → Reach step t u → Reach step s u := by
    rintro s t u ⟨x, hx⟩ ⟨y, hy⟩; exact ⟨x ++ y, by rw [runSched_append, hx]; exact hy⟩
  have key : Reachable s ∧ ∀ a b o, s.log = a ++ o :: b →
      ∃ s0 s1, Reachable s0 ∧ Reach step s0 s1 ∧ Step s0 s1 ∧ s0.log = b ∧ s1.log = o :: b ∧ Reach step s1 s := by
    refine Reach.inv (P := fun s => Reachable s ∧ ∀ a b o, s.log = a ++ o :: b →
      ∃ s0 s1, Reachable s0 ∧ Reach step s0 s1 ∧ Step s0 s1 ∧ s0.log = b ∧ s1.log = o :: b ∧ Reach step s1 s) ?_ ?_ hr
    · rintro s x s' ⟨hr, ih⟩ hst
      refine ⟨hr.trans (one hst), ?_⟩
      intro a b o hl
      have st := step_of (all_of hr) hst
      rcases step_log st with e | ⟨o', e⟩
      · rw [e] at hl
        obtain ⟨s0, s1, h1, h1', h2, h3, h4, h5⟩ := ih a b o hl
        exact ⟨s0, s1, h1, h1', h2, h3, h4, tr h5 (one hst)⟩
      · rw [e] at hl
        cases a with
        | nil =>
          simp at hl
          obtain ⟨rfl, rfl⟩ := hl
          exact ⟨s, s', hr, one hst, st, rfl, e, ⟨[], rfl⟩⟩
        | cons y a =>
          simp at hl
          obtain ⟨s0, s1, h1, h1', h2, h3, h4, h5⟩ := ih a b o hl.2
          exact ⟨s0, s1, h1, h1', h2, h3, h4, tr h5 (one hst)⟩
    · exact ⟨⟨[], rfl⟩, by simp [init]⟩
  exact key.2 a b o h


/-- What a command waits for was submitted before it, or is a user event, or is no event. -/
theorem waits_before {s : St} (hr : Reachable s) {A B : List Obs} {c t h w : Nat} (hl : s.log = A ++ .submit c t h :: B) (hw : w ∈ s.waits h) :
    (∃ c' t', Obs.submit c' t' w ∈ B) ∨ isUser (s.loc w) = true ∨ s.loc w = .unborn := by
  obtain ⟨s0, s1, h0, h01, st, e0, e1, h1⟩ := log_split' hr A B _ hl
  have hnew : Obs.submit c t h ∉ s0.log := by
    intro hm
    have i1 := st.all'.i
    have hh := i1.hist h
    rw [e1, ← e0, List.filter_cons_of_pos (by simp [Obs.subj])] at hh
    have hm' : Obs.submit c t h ∈ s0.log.filter (fun o => decide (o.subj = h)) := List.mem_filter.2 ⟨hm, by simp [Obs.subj]⟩
    revert hh hm'
    generalize s0.log.filter (fun o => decide (o.subj = h)) = L
    intro hh hm'
    generalize s1.loc h = l at hh
    cases l <;> simp [obsOf] at hh <;> (try (obtain ⟨_, rfl⟩ := hh; simp at hm'))
  obtain ⟨i, ws, blk, ot, seen, hp, -⟩ := step_submit_new st (by rw [e1]; simp) hnew
  have hws := st.all.i2.so i c h ws blk hp
  have hb0 : s0.loc h ≠ .unborn := by
    have := st.all.i.locC (l := .alloc i) hp (h := h) rfl
    rw [this]; simp
  have hR : Reach step s0 s := by
    obtain ⟨x, hx⟩ := h01; obtain ⟨y, hy⟩ := h1
    exact ⟨x ++ y, by rw [runSched_append, hx]; exact hy⟩
  have hws' : s.waits h = ws := by rw [reach_waits h0 hR h hb0, hws]
  rw [hws'] at hw
  have hok := st.all.i2.wok h w (by rw [hws]; exact hw)
  have hcnt : w < s0.counter := by
    refine okArg_lt st.all hok ?_
    cases hi : s0.inited with
    | true => rfl
    | false =>
      have := (st.all.i2.ini hi).1
      have h2 := st.all.i.fresh h (by omega)
      exact absurd h2 hb0
  rw [← e0]
  by_cases hu : s0.loc w = .unborn
  · exact Or.inr (Or.inr (unborn_stays h0 hR hcnt hu))
  · by_cases hus : isUser (s0.loc w) = true
    · refine Or.inr (Or.inl ?_)
      refine reach_rel (R := fun s s' => isUser (s.loc w) = true → isUser (s'.loc w) = true) (fun _ h => h) (fun _ _ _ _ _ h1 h2 h => h2 (h1 h)) ?_ h0 hR hus
      intro s s' st h
      rcases st.ln w with l | l
      · rw [l]; exact h
      · exact isUser_next l h
    · left
      rcases hok with hok | hok
      · obtain ⟨-, n1, n2⟩ := st.all.i2.rt w hok
        have key : ∀ l, s0.loc w = l → ∃ c' t', Obs.submit c' t' w ∈ s0.log := by
          intro l hl
          have om := fun {o : Obs} (h : o ∈ obsOf w (s0.loc w)) => obs_mem st.all.i h
          rw [hl] at hu hus n2 om
          cases l
          case unborn => exact absurd rfl hu
          case alloc i => exact absurd hl (n1 i)
          case leaked => exact absurd rfl n2
          case queued c t => exact ⟨c, t, om (by simp [obsOf])⟩
          case pre c t => exact ⟨c, t, om (by simp [obsOf])⟩
          case skipping c t => exact ⟨c, t, om (by simp [obsOf])⟩
          case skipped c t => exact ⟨c, t, om (by simp [obsOf])⟩
          case running c t => exact ⟨c, t, om (by simp [obsOf])⟩
          case ran c t r => exact ⟨c, t, om (by simp [obsOf])⟩
          case fin1 c t r => exact ⟨c, t, om (by simp [obsOf])⟩
          case fin2 c t r => exact ⟨c, t, om (by simp [obsOf])⟩
          case fin3 c t r => exact ⟨c, t, om (by simp [obsOf])⟩
          case fin4 c t r => exact ⟨c, t, om (by simp [obsOf])⟩
          case over c t r => exact ⟨c, t, om (by simp [obsOf])⟩
          all_goals exact absurd rfl hus
        exact key _ rfl
      · exfalso
        have := (st.all.i2.iss w (st.all.i2.born w hu)).1
        omega

/-- The manager thread works on this command, or will take it next. -/
def Focus (s : St) (c t h : Nat) : Prop :=
  ((s.mgr c t = .idle ∨ s.mgr c t = .exited) ∧ ∃ rest, s.queue c t = ⟨h, s.waits h⟩ :: rest) ∨ ∃ l, expA s (.mg c t) = some (h, l)

/-- The first unfinished command, with what it waits for set: its manager is not blocked. -/
theorem focus_move {s : St} (hr : Reachable s) (hub : s.ub = false) {A B : List Obs} {c t h : Nat} (hl : s.log = A ++ .submit c t h :: B)
    (hn : (s.ev h).ready = false) (hB : ∀ c' t' x, Obs.submit c' t' x ∈ B → (s.ev x).ready = true)
    (hU : ∀ w ∈ s.waits h, (s.ev w).user = true → (s.ev w).ready = true) : Focus s c t h ∧ CanMove s c t := by
  have al := all_of hr
  have i := al.i
  have hsub : Obs.submit c t h ∈ s.log := by rw [hl]; simp
  have hnq : t < s.nq c := (tinv hr h c t hsub).2
  have mv : ∀ {a : Act} {s' : St}, ManagerAct c t a → step s a = some s' → CanMove s c t := fun h1 h2 => ⟨_, _, h1, h2⟩
  rcases submit_phase i hsub with hq | ho | hg
  · -- waiting in the queue
    obtain ⟨P, h1, h2⟩ := qinv hr c t
    have hs : subs c t s.log = subs c t B ++ h :: subs c t A := by
      rw [hl]; unfold subs; simp
    have hnot : ∀ x ∈ cur s c t, (s.ev x).ready = false := by
      intro x hx
      unfold cur at hx
      cases he : expA s (.mg c t) with
      | none => rw [he] at hx; simp at hx
      | some y =>
        obtain ⟨y, l⟩ := y
        rw [he] at hx; simp at hx; subst hx
        have hloc := i.pcs _ _ _ he
        exact ready_busy i (Or.inr (by rw [hloc]; exact expA_owner s _ _ _ he))
    have hqn : ∀ x ∈ (s.queue c t).map Task.ev, (s.ev x).ready = false := by
      intro x hx
      obtain ⟨k, hk, rfl⟩ := List.mem_map.1 hx
      exact ready_busy (c := c) (t := t) i (Or.inl (i.q c t k hk).1)
    have hmem : h ∈ P ++ cur s c t ++ (s.queue c t).map Task.ev := by rw [← h1, hs]; simp
    have hP : h ∉ P := fun hp => by have := ready_gone i (h2 h hp); rw [hn] at this; simp at this
    have hc : h ∉ cur s c t := by
      intro hx
      unfold cur at hx
      cases he : expA s (.mg c t) with
      | none => rw [he] at hx; simp at hx
      | some y =>
        obtain ⟨y, l⟩ := y
        rw [he] at hx; simp at hx; subst hx
        have hloc := i.pcs _ _ _ he
        have := expA_owner s _ _ _ he
        rw [← hloc, hq] at this; simp [owner] at this
    have hqm : h ∈ (s.queue c t).map Task.ev := by
      simp only [List.mem_append] at hmem
      rcases hmem with (h' | h') | h'
      · exact absurd h' hP
      · exact absurd h' hc
      · exact h'
    obtain ⟨q1, q2, hqq⟩ := List.append_of_mem hqm
    have hnd := subs_nodup hr c t
    have heq : P ++ cur s c t ++ q1 = subs c t B := by
      have e : (P ++ cur s c t ++ q1) ++ h :: q2 = subs c t B ++ h :: subs c t A := by
        rw [← hs, h1, hqq]; simp
      have hnd' := hnd
      rw [hs] at hnd'
      have n2 : h ∉ subs c t B := by
        intro hm; exact (List.nodup_append.1 hnd').2.2 h hm h (by simp) rfl
      have n1 : h ∉ P ++ cur s c t ++ q1 := by
        rw [hs, ← e] at hnd
        intro hm; exact (List.nodup_append.1 hnd).2.2 h hm h (by simp) rfl
      have key : ∀ (X Y U V : List Nat), h ∉ X → h ∉ Y → X ++ h :: U = Y ++ h :: V → X = Y := by
        intro X
        induction X with
        | nil => intro Y U V _ hY e; cases Y with
          | nil => rfl
          | cons y Y => simp at e hY; exact absurd e.1 hY.1
        | cons x X ih => intro Y U V hX hY e; cases Y with
          | nil => simp at e hX; exact absurd e.1.symm hX.1
          | cons y Y => simp at e hX hY; rw [e.1, ih Y U V hX.2 hY.2 e.2]
      exact key _ _ _ _ n1 n2 e
    have hready : ∀ x ∈ subs c t B, (s.ev x).ready = true := fun x hx => hB c t x (mem_subs.1 hx)
    have hc0 : cur s c t = [] := by
      cases hcc : cur s c t with
      | nil => rfl
      | cons x r =>
        have h3 := hnot x (by rw [hcc]; simp)
        have h4 := hready x (by rw [← heq, hcc]; simp)
        rw [h3] at h4; simp at h4
    have hq0 : q1 = [] := by
      cases q1 with
      | nil => rfl
      | cons x r =>
        have h3 := hqn x (by rw [hqq]; simp)
        have h4 := hready x (by rw [← heq]; simp)
        rw [h3] at h4; simp at h4
    subst hq0
    rw [List.nil_append] at hqq
    obtain ⟨k, rest, hk, hke⟩ : ∃ k rest, s.queue c t = k :: rest ∧ k.ev = h := by
      cases hqs : s.queue c t with
      | nil => rw [hqs] at hqq; simp at hqq
      | cons k rest => rw [hqs] at hqq; simp at hqq; exact ⟨k, rest, rfl, hqq.1⟩
    have hkw := (i.q c t k (by rw [hk]; simp)).2
    have hkk : k = ⟨h, s.waits h⟩ := by cases k; simp only at hke hkw; subst hke; rw [hkw]
    have hm : s.mgr c t = .idle ∨ s.mgr c t = .exited := by
      have he : expA s (.mg c t) = none := by
        unfold cur at hc0
        cases he : expA s (.mg c t) with
        | none => rfl
        | some y => rw [he] at hc0; simp at hc0
      simp only [expA] at he
      cases hp : s.mgr c t <;> rw [hp] at he <;> simp [expM] at he ⊢
    refine ⟨Or.inl ⟨hm, rest, by rw [hk, hkk]⟩, ?_⟩
    have : ∃ s', popStep s c t = some s' := by
      unfold popStep
      rcases hm with hm | hm <;> rw [hm, hk]
      · by_cases hd : s.done c = true <;> simp [hd]
      · exact ⟨_, rfl⟩
    obtain ⟨s', hs'⟩ := this
    exact mv (a := .pop c t) (Or.inl rfl) (by simp [step, hub, hnq]; exact hs')
  · -- in work
    have he := i.conv h _ ho
    refine ⟨Or.inr ⟨_, he⟩, ?_⟩
    simp only [expA] at he
    have dep : ∀ s', depStep s c t = some s' → CanMove s c t := fun s' hs' => mv (a := .dep c t) (Or.inr (Or.inl rfl)) (by simp [step, hub, hnq]; exact hs')
    have run : ∀ s', runStep s c t 0 = some s' → CanMove s c t := fun s' hs' => mv (a := .run c t 0) (Or.inr (Or.inr ⟨0, rfl⟩)) (by simp [step, hub, hnq]; exact hs')
    cases hp : s.mgr c t with
    | idle => rw [hp] at he; simp [expM] at he
    | exited => rw [hp] at he; simp [expM] at he
    | lookup k todo =>
      cases todo with
      | nil =>
        by_cases hd : (s.ev k.ev).dead = true
        · exact dep _ (by simp [depStep, hp, hd]; rfl)
        · exact dep _ (by simp [depStep, hp, hd]; rfl)
      | cons w rest =>
        by_cases hd : w ∈ s.evs
        · exact dep _ (by simp [depStep, hp, hd]; rfl)
        · exact dep _ (by simp [depStep, hp, hd]; rfl)
    | block k w rest =>
      rw [hp] at he; simp [expM] at he
      obtain ⟨p, hpw, -⟩ := (minv hr).todo c t k (w :: rest) (by rw [hp]; rfl)
      have hw : w ∈ s.waits h := by rw [← he.1, hpw]; simp
      have hwr : (s.ev w).ready = true := by
        rcases waits_before hr hl hw with ⟨c', t', hb⟩ | hu | hu
        · exact hB _ _ _ hb
        · exact hU w hw (by rw [user_loc i]; exact hu)
        · exfalso
          have hh : Actor.mg c t ∈ (s.ev w).hold := (al.hi.own w (.mg c t)).2 (by simp [held, hp, heldM])
          rw [al.hi.fresh w hu] at hh; simp [newEv] at hh
      by_cases h0 : (s.ev w).rt = NO_ERROR
      · exact dep _ (by simp only [depStep, hp, hwr, h0, if_true]; rfl)
      · exact dep _ (by simp only [depStep, hp, hwr, h0, if_true, if_false]; rfl)
    | skip k => exact dep _ (by simp [depStep, hp]; rfl)
    | run k => exact run _ (by simp [runStep, hp]; rfl)
    | ran k r => exact run _ (by simp [runStep, hp]; rfl)
    | fin1 k r => exact run _ (by simp [runStep, hp]; rfl)
    | fin2 k r => exact run _ (by simp [runStep, hp]; rfl)
    | fin3 k r => exact run _ (by simp [runStep, hp]; rfl)
    | fin4 k r => exact run _ (by simp [runStep, hp]; rfl)
  · have := ready_gone i hg; rw [hn] at this; simp at this

end Mcut.Api
