import Verif.Lemmas.C08

/-! C08: the execution status of an event only advances. -/
namespace Mcut.Api

/-- Take any event that a query can find. Whatever happens later, under every interleaving, its status never moves
backwards, and once it is COMPLETE both the status and the runtime result stay as they are. -/
theorem C08_status_only_advances (s s' : St) (hr : Reachable s) (he : Reach step s s') (h : Nat) (hb : h ∈ s.evs) :
    Forward (report s h) (report s' h) := by
  have : (s.loc h ≠ .unborn → s'.loc h ≠ .unborn ∧ Forward (report s h) (report s' h)) := by
    refine reach_rel (R := fun s s' => s.loc h ≠ .unborn → s'.loc h ≠ .unborn ∧ Forward (report s h) (report s' h))
      ?_ ?_ ?_ hr he
    · intro s hs; exact ⟨hs, .refl _⟩
    · intro s t u _ _ h1 h2 hs
      have h1 := h1 hs; have h2 := h2 h1.1
      exact ⟨h2.1, h1.2.trans h2.2⟩
    · intro s s' st hs
      refine ⟨?_, (step_forward st h hs).1⟩
      rcases st.ln h with l | l
      · rw [l]; exact hs
      · exact l.ne_unborn
  exact (this ((all_of hr).i.evsLoc h hb)).2

/-- No status is jumped over: one step advances it by at most one. -/
theorem C08_no_status_skipped (s s' : St) (a : Act) (hr : Reachable s) (hs : step s a = some s') (h : Nat)
    (hb : h ∈ s.evs) : (report s' h).1.rank ≤ (report s h).1.rank + 1 :=
  (step_forward (step_of (all_of hr) hs) h ((all_of hr).i.evsLoc h hb)).2

/-- A new event starts as SUBMITTED without an error. -/
theorem C08_starts_submitted (s s' : St) (a : Act) (hr : Reachable s) (hs : step s a = some s') (h : Nat)
    (hn : h ∉ s.evs) (hb : h ∈ s'.evs) : report s' h = (.submitted, 0) := by
  have st := step_of (all_of hr) hs
  have hu : s.loc h = .unborn := by
    obtain ⟨⟨i, i2, hi⟩, al', hub, tr, ln, lu⟩ := id st
    cases tr with
    | createUser j c hp hc => simp [hn] at hb; subst hb; exact i.fresh _ (Nat.le_refl _)
    | enqueue j c ws blk hp hw hbb hc => simp [hn] at hb; subst hb; exact i.fresh _ (Nat.le_refl _)
    | createCtx j ooo hp => simp [createCtx] at hb; exact absurd hb hn
    | newCC c t q hn' hp hh => simp at hb; exact absurd hb hn
    | _ => exfalso; simp at hb; tauto
  rw [report_expect st.all'.i]
  rcases st.ln h with l | l
  · rw [l, hu]; rfl
  · generalize s'.loc h = l' at l
    rw [hu] at l; cases l <;> rfl

/-- COMPLETE means what it says: the event's command has ended with exactly the reported result, or the event is a user
event that was set to COMPLETE. -/
theorem C08_complete_is_true (s : St) (hr : Reachable s) (h : Nat) (hc : (s.ev h).stat = .complete) :
    ((s.ev h).user = false ∧ ∃ c t, Obs.stop c t h (s.ev h).rt ∈ s.log) ∨ ((s.ev h).user = true ∧ (s.ev h).rt = 0) := by
  have i := (all_of hr).i
  have hf := i.fields h
  have hh := i.hist h
  simp only [core] at hf
  have stop : ∀ c t r, s.loc h = .fin4 c t r ∨ s.loc h = .over c t r → (s.ev h).user = false ∧ ∃ c t, Obs.stop c t h (s.ev h).rt ∈ s.log := by
    intro c t r hl
    have h1 : Obs.stop c t h r ∈ s.log := by
      have : Obs.stop c t h r ∈ s.log.filter (fun o => o.subj = h) := by
        rw [hh]; rcases hl with hl | hl <;> rw [hl] <;> simp [obsOf]
      exact (List.mem_filter.1 this).1
    rcases hl with hl | hl <;> rw [hl] at hf <;> simp [expect] at hf <;> exact ⟨hf.1, c, t, by rw [hf.2.2.2.1]; exact h1⟩
  cases hl : s.loc h with
  | fin4 c t r => exact Or.inl (stop c t r (Or.inl hl))
  | over c t r => exact Or.inl (stop c t r (Or.inr hl))
  | u3 i r => rw [hl] at hf; simp [expect] at hf; right; exact ⟨hf.1, hf.2.2.2.1⟩
  | u4 i r => rw [hl] at hf; simp [expect] at hf; right; exact ⟨hf.1, hf.2.2.2.1⟩
  | u5 i r =>
    rw [hl] at hf; simp [expect] at hf; right; refine ⟨hf.1, ?_⟩
    by_cases h0 : r = 0
    · rw [hf.2.2.2.1, h0]
    · rw [hf.2.1] at hc; simp [h0] at hc
  | uOver r =>
    rw [hl] at hf; simp [expect] at hf; right; refine ⟨hf.1, ?_⟩
    by_cases h0 : r = 0
    · rw [hf.2.2.2.1, h0]
    · rw [hf.2.1] at hc; simp [h0] at hc
  | _ => rw [hl] at hf; simp [expect] at hf; rw [hf.2.1] at hc; simp at hc

/-- The hypotheses are met, and every status does occur: an event is SUBMITTED, RUNNING, then COMPLETE with the
command's result. -/
example :
    let pre : List Act := [.createCtx 0 false, .enqueue 0 0xDECAF [] false, .enqueue2 0 (fun _ => true)]
    let mid : List Act := [.pop 0xDECAF 0, .dep 0xDECAF 0]
    let post : List Act := [.run 0xDECAF 0 (-4), .run 0xDECAF 0 0, .run 0xDECAF 0 0, .run 0xDECAF 0 0, .run 0xDECAF 0 0, .run 0xDECAF 0 0]
    (runSched step init pre).map (fun s => (s.evs, report s 0xDECB0)) = some ([0xDECB0], .submitted, 0) ∧
    (runSched step init (pre ++ mid)).map (fun s => report s 0xDECB0) = some (.running, 0) ∧
    (runSched step init (pre ++ mid ++ post)).map (fun s => report s 0xDECB0) = some (.complete, -4) := by
  decide +kernel

end Mcut.Api
