import Verif.Lemmas.C14

/-! C14: commands of an in-order context execute in submission order. -/
namespace Mcut.Api

/-- Commands of one queue execute in the order of submission: when the work of a command begins, every command that was
submitted to the same queue before it is finished with. -/
theorem C14_queue_order (s : St) (hr : Reachable s) (a b : List Obs) (c t h h' : Nat)
    (hs : s.log = a ++ .start c t h :: b) (hb : EnqueuedBefore b c t h' t h) : DoneIn b h' := by
  obtain ⟨s0, s1, hr0, st, e0, e1, -⟩ := log_split hr a b _ hs
  obtain ⟨x, y, hxy, hy⟩ := hb
  have hp := (start_phase st (by rw [e0]; exact e1)).1
  rw [← e0]
  exact gone_done st.all.i (earlier_gone hr0 (c := c) (t := t) (h := h) (by rw [hp]; rfl) (by rw [e0]; exact hxy) hy)

/-- Commands of one queue execute one at a time: when the work of a command begins, the work of every command of that
queue that was begun before it has ended. -/
theorem C14_one_at_a_time (s : St) (hr : Reachable s) (a b : List Obs) (c t h h' : Nat)
    (hs : s.log = a ++ .start c t h :: b) (hb : Obs.start c t h' ∈ b) : ∃ r, Obs.stop c t h' r ∈ b := by
  obtain ⟨s0, s1, hr0, st, e0, e1, -⟩ := log_split hr a b _ hs
  have hp := (start_phase st (by rw [e0]; exact e1)).1
  have i := st.all.i
  rw [← e0] at hb ⊢
  have hm := mem_obs i hb
  simp only [Obs.subj] at hm
  have hc := i.conv h (.mg c t) (by rw [hp]; rfl)
  have : ∀ r, Obs.stop c t h' r ∈ obsOf h' (s0.loc h') → Obs.stop c t h' r ∈ s0.log := fun r hh => obs_mem i hh
  cases hl : s0.loc h' with
  | running c' t' =>
    rw [hl] at hm; simp [obsOf] at hm; obtain ⟨rfl, rfl⟩ := hm
    have hc' := i.conv h' (.mg c t) (by rw [hl]; rfl)
    rw [hc'] at hc; simp at hc; rw [← hc.1, hl] at hp; simp at hp
  | ran c' t' r => rw [hl] at hm; simp [obsOf] at hm; obtain ⟨rfl, rfl⟩ := hm; exact ⟨r, this r (by rw [hl]; simp [obsOf])⟩
  | fin1 c' t' r => rw [hl] at hm; simp [obsOf] at hm; obtain ⟨rfl, rfl⟩ := hm; exact ⟨r, this r (by rw [hl]; simp [obsOf])⟩
  | fin2 c' t' r => rw [hl] at hm; simp [obsOf] at hm; obtain ⟨rfl, rfl⟩ := hm; exact ⟨r, this r (by rw [hl]; simp [obsOf])⟩
  | fin3 c' t' r => rw [hl] at hm; simp [obsOf] at hm; obtain ⟨rfl, rfl⟩ := hm; exact ⟨r, this r (by rw [hl]; simp [obsOf])⟩
  | fin4 c' t' r => rw [hl] at hm; simp [obsOf] at hm; obtain ⟨rfl, rfl⟩ := hm; exact ⟨r, this r (by rw [hl]; simp [obsOf])⟩
  | over c' t' r => rw [hl] at hm; simp [obsOf] at hm; obtain ⟨rfl, rfl⟩ := hm; exact ⟨r, this r (by rw [hl]; simp [obsOf])⟩
  | _ => rw [hl] at hm; simp [obsOf] at hm

/-- In a context created without out-of-order execution, commands execute one at a time and in the order in which they
were enqueued: when the work of a command begins, every command enqueued to the context before it is finished with, and
the work of every command of the context that was begun before it has ended. -/
theorem C14_in_order_context (s0 s1 s : St) (i c : Nat) (h0 : Reachable s0) (hc : step s0 (.createCtx i false) = some s1)
    (hret : s1.rets.head? = some (i, .createContext c, NO_ERROR)) (h1 : Reach step s1 s)
    (a b : List Obs) (t h : Nat) (hs : s.log = a ++ .start c t h :: b) :
    (∀ t' u h', EnqueuedBefore b c t' h' u h → DoneIn b h') ∧
    (∀ t' h', Obs.start c t' h' ∈ b → ∃ r, Obs.stop c t' h' r ∈ b) := by
  have hr := (one_step h0 hc).trans h1
  have key : ∀ {t h}, Obs.submit c t h ∈ s.log → t = 0 := fun hl => in_order_one_queue h0 hc hret h1 hl
  have sub : ∀ t h, Obs.start c t h ∈ s.log → Obs.submit c t h ∈ s.log := by
    intro t h hm
    have i := (all_of hr).i
    have := mem_obs i hm
    refine obs_mem i (h := h) ?_
    simp only [Obs.subj] at this
    generalize s.loc h = l at this ⊢
    cases l <;> simp [obsOf] at this ⊢ <;> exact this
  have ht := key (sub t h (by rw [hs]; simp))
  subst ht
  refine ⟨?_, ?_⟩
  · intro t' u h' he
    obtain ⟨x, y, hb, hy⟩ := id he
    have hu := key (t := u) (h := h) (by rw [hs, hb]; simp)
    have ht' := key (t := t') (h := h') (by rw [hs, hb]; simp [hy])
    subst hu; subst ht'
    exact C14_queue_order s hr a b c 0 h h' hs he
  · intro t' h' hm
    have ht' := key (sub t' h' (by rw [hs]; simp [hm]))
    subst ht'
    exact C14_one_at_a_time s hr a b c 0 h h' hs hm

/-- Order of calls: a command enqueued by a call that had returned before the call of another command began (so that the
other command's event did not exist yet) precedes it. Together with `C14_in_order_context`: it is finished with before
the other command begins. -/
theorem C14_calls_in_order (s s' : St) (hr : Reachable s) (hs : Reach step s s') (i c t u h h' : Nat) (ws : List Nat)
    (hret : (i, Call.enqueue c h ws, NO_ERROR) ∈ s.rets) (hn : h' ∉ s.issued)
    (h1 : Obs.submit c t h ∈ s'.log) (h2 : Obs.submit c u h' ∈ s'.log) : EnqueuedBefore s'.log c t h u h' := by
  have hr' := hr.trans hs
  have al := all_of hr
  have hin : Obs.submit c t h ∈ s.log := by
    rcases (rinv hr).rets _ hret with ⟨-, -, hl⟩ | ⟨hl, -⟩
    · obtain ⟨t', ht'⟩ : ∃ t', place (s.loc h) = some (c, t') := by
        generalize s.loc h = l at hl
        cases l <;> simp [inCtx] at hl <;> subst hl <;> exact ⟨_, rfl⟩
      have : place (s'.loc h) = some (c, t') := by
        refine reach_rel (R := fun s s' => place (s.loc h) = some (c, t') → place (s'.loc h) = some (c, t')) ?_ ?_ ?_ hr hs ht'
        · intro s hh; exact hh
        · intro s t u _ _ a b hh; exact b (a hh)
        · intro s s' st hh
          rcases st.ln h with l | l
          · rw [l]; exact hh
          · exact place_next l hh
      rw [(place_log (all_of hr').i h c t).2 h1] at this
      simp at this; subst this
      exact (place_log al.i h c t).1 ht'
    · exact absurd hl (by decide)
  have hmono : ∃ a, s'.log = a ++ s.log := by
    refine reach_rel (R := fun s s' => ∃ a, s'.log = a ++ s.log) ?_ ?_ ?_ hr hs
    · intro s; exact ⟨[], rfl⟩
    · rintro s t u _ _ ⟨a, ha⟩ ⟨b, hb⟩; exact ⟨b ++ a, by rw [hb, ha, List.append_assoc]⟩
    · intro s s' st
      rcases step_log st with e | ⟨o, e⟩
      · exact ⟨[], e⟩
      · exact ⟨[o], e⟩
  obtain ⟨a, ha⟩ := hmono
  have hna : Obs.submit c u h' ∈ a := by
    rw [ha] at h2
    rcases List.mem_append.1 h2 with h2 | h2
    · exact h2
    · have := (place_log al.i h' c u).2 h2
      exact absurd (al.i2.born h' (by intro e; rw [e] at this; simp [place] at this)) hn
  obtain ⟨x, y, hxy⟩ := List.append_of_mem hna
  exact ⟨x, y ++ s.log, by rw [ha, hxy]; simp, by simp [hin]⟩

/-- Every command is put into a queue of its context that exists (one for an in-order context, at most two otherwise),
whatever the client threads and managers do. The full claim says this for every accepted call; the code goes wrong when
the wait list names an unfinished command of another context (`C14_foreign_wait_list_fails`), and only then: -/
theorem C14_queue_index_valid_partial (s s' : St) (hr : Reachable s) (i : Nat) (seen : Nat → Bool)
    (hs : step s (.enqueue2 i seen) = some s') :
    ∃ c h ws blk, s.cl i = .submit c h ws blk ∧ ((∀ t, Obs.submit c t h ∈ s'.log → t < s.nq c ∧ s.nq c ≤ 2) ∧
      (s'.ub = true → ∃ w ∈ ws, ∃ c' t', c' ≠ c ∧ Obs.submit c' t' w ∈ s.log ∧ (s.ev w).fin = false)) := by
  have hub : s.ub = false := by
    cases hu : s.ub with
    | false => rfl
    | true => simp [step, hu] at hs
  have hst := hs
  have i0 := (all_of hr).i
  simp only [step, hub, Bool.false_eq_true, if_false, finishEnqueue] at hs
  split at hs <;> [skip; simp at hs]
  rename_i c h ws blk hp
  refine ⟨c, h, ws, blk, hp, ?_, ?_⟩
  · intro t ht
    have n := nqinv hr
    refine ⟨?_, n.le c⟩
    have := (tinv (one_step hr hst) _ _ _ ht).2
    rwa [step_nq (step_of (all_of hr) hst) (n.iss c (submit_nq hr i c h ws blk hp))] at this
  · intro hu
    have hn := submit_nq hr i c h ws blk hp
    have hpick : pickQueue (s.nq c) seen < s.nq c := by
      unfold pickQueue
      split
      · rename_i j hj
        have := List.mem_of_find?_eq_some hj
        simp at this
        obtain ⟨a, ha, rfl⟩ := this
        exact Nat.mod_lt _ hn
      · exact hn
    cases hres : resolve s ws with
    | error e =>
      rw [hres] at hs; simp at hs; subst hs
      simp [dropCtx] at hu; split at hu <;> simp [hub] at hu
    | ok ot =>
      rw [hres] at hs
      simp only at hs
      split at hs
      · exfalso
        cases blk <;> simp at hs <;> subst hs <;> simp [dropCtx] at hu <;> split at hu <;> simp [hub] at hu
      · rename_i hlt
        cases ot with
        | none => simp at hlt; omega
        | some t =>
          simp at hlt
          have key : ∀ ws, resolve s ws = .ok (some t) → ∃ w ∈ ws, w ∈ s.evs ∧ (s.ev w).fin = false ∧ (s.ev w).user = false ∧ (s.ev w).tid = some t := by
            intro ws
            induction ws with
            | nil => simp [resolve]
            | cons w ws ih =>
              intro h
              unfold resolve at h
              split at h <;> [simp at h; skip]
              split at h
              · simp at h; exact ⟨w, by simp, by simp_all, by tauto, by tauto, h⟩
              · obtain ⟨x, hx, h2⟩ := ih h; exact ⟨x, by simp [hx], h2⟩
          obtain ⟨w, hw, hwe, hf, hus, htid⟩ := key ws hres
          have hok : okArg s w := (all_of hr).i2.wok h w (by rw [(all_of hr).i2.so i c h ws blk hp]; exact hw)
          have hret : w ∈ s.returned := by
            rcases hok with hok | hok
            · exact hok
            · have := evs_ge (all_of hr) hwe; omega
          have hpl : ∃ c' t', place (s.loc w) = some (c', t') := by
            have h1 := i0.evsLoc w hwe
            have h2 := (all_of hr).i2.rt w hret
            have h3 := i0.fields w
            simp only [core, hus] at h3
            cases hl : s.loc w <;> rw [hl] at h1 h2 h3 <;> simp [expect] at h1 h2 h3 <;> exact ⟨_, _, rfl⟩
          obtain ⟨c', t', hpl⟩ := hpl
          have hsub := (place_log i0 w c' t').1 hpl
          have ht := tinv hr _ _ _ hsub
          rw [htid] at ht; simp at ht; obtain ⟨rfl, ht⟩ := ht
          refine ⟨w, hw, c', t, ?_, hsub, hf⟩
          rintro rfl; omega

/-- The claim about the queue index is FALSE: with a wait list that names an unfinished command which was put into the
second queue of an out-of-order context, a call for an in-order context indexes its one-element queue array with 1. -/
theorem C14_foreign_wait_list_fails : ∃ s, Reachable s ∧ s.ub = true := by
  have hex : ∃ s, runSched step init [.createCtx 0 true, .createCtx 0 false, .enqueue 0 0xDECAF [] false, .enqueue2 0 (fun _ => true),
      .enqueue 0 0xDECB0 [0xDECB1] false, .enqueue2 0 (fun _ => true)] = some s ∧ s.ub = true := by
    refine ⟨_, rfl, ?_⟩
    decide +kernel
  obtain ⟨s, h1, h2⟩ := hex
  exact ⟨s, ⟨_, h1⟩, h2⟩

/-- The hypotheses are met: three commands of an in-order context, enqueued by two clients while the first is running,
execute in order; two commands of an out-of-order context overlap. -/
example :
    let fin (t : Nat) : List Act := [.run 0xDECAF t 0, .run 0xDECAF t 0, .run 0xDECAF t 0, .run 0xDECAF t 0, .run 0xDECAF t 0, .run 0xDECAF t 0]
    let a : List Act := [.createCtx 0 false, .enqueue 0 0xDECAF [] false, .enqueue 1 0xDECAF [] false, .enqueue2 1 (fun _ => true), .enqueue2 0 (fun _ => true),
      .pop 0xDECAF 0, .dep 0xDECAF 0, .enqueue 0 0xDECAF [] false, .enqueue2 0 (fun _ => true)] ++ fin 0 ++
      [.pop 0xDECAF 0, .dep 0xDECAF 0] ++ fin 0 ++ [.pop 0xDECAF 0, .dep 0xDECAF 0]
    (runSched step init a).map (fun s => s.log.reverse) = some [.submit 0xDECAF 0 0xDECB1, .submit 0xDECAF 0 0xDECB0,
      .start 0xDECAF 0 0xDECB1, .submit 0xDECAF 0 0xDECB2, .stop 0xDECAF 0 0xDECB1 0,
      .start 0xDECAF 0 0xDECB0, .stop 0xDECAF 0 0xDECB0 0, .start 0xDECAF 0 0xDECB2] ∧
    let b : List Act := [.createCtx 0 true, .enqueue 0 0xDECAF [] false, .enqueue2 0 (fun _ => true), .enqueue 0 0xDECAF [] false,
      .enqueue2 0 (fun i => i == 0), .pop 0xDECAF 0, .dep 0xDECAF 0, .pop 0xDECAF 1, .dep 0xDECAF 1]
    (runSched step init b).map (fun s => s.log.reverse) = some [.submit 0xDECAF 1 0xDECB0, .submit 0xDECAF 0 0xDECB1,
      .start 0xDECAF 0 0xDECB1, .start 0xDECAF 1 0xDECB0] := by
  decide +kernel

end Mcut.Api
