import Verif.Lemmas.ApiCtx
/-! Why commands are given up in the API model. -/
namespace Mcut.Api

theorem upd2_eq {α : Type} {f : Nat → Nat → α} {c t c' t' : Nat} {v w : α} (h : upd2 f c t v c' t' = w) :
    (c' = c ∧ t' = t ∧ v = w) ∨ f c' t' = w := by
  by_cases e : c' = c ∧ t' = t
  · obtain ⟨rfl, rfl⟩ := e; rw [upd2_same] at h; exact Or.inl ⟨rfl, rfl, h⟩
  · rw [upd2_other _ _ _ _ _ _ e] at h; exact Or.inr h

theorem done_step {s s' : St} (st : Step s s') {c : Nat} (h : s.done c = true) : s'.done c = true := by
  obtain ⟨al, al', hub, tr, ln, lu⟩ := id st
  have key : ∀ (x : St) c' a, x.done c = true → (dropCtx x c' a).done c = true := by
    intro x c' a hx
    unfold dropCtx
    simp only
    split
    · cases a <;> simp [bad] <;> exact upd_ind (P := fun v => v = true) c (fun _ => rfl) (fun _ => hx)
    · exact hx
  cases tr with
  | createCtx j ooo hp => exact h
  | enqueueUnknown j c' x ws blk hp hr' => simp; exact key _ _ _ (by simpa using h)
  | enqueueBlk j c' x ws t' ot seen hp hr' ht hlt => simp [pushed]; exact key _ _ _ (by simpa using h)
  | enqueueRet j c' x ws t' ot seen hp hr' ht hlt => simp [pushed]; exact key _ _ _ (by simpa using h)
  | relCtx2 j c' hp => simp; exact key _ _ _ h
  | stop c' t k r hlt hp hh hr' => simp; exact key _ _ _ h
  | _ => simpa using h

theorem step_skip_new {s s' : St} (hr : Reachable s) (st : Step s s') {c t h : Nat} (h1 : Obs.skip c t h ∈ s'.log) (h0 : Obs.skip c t h ∉ s.log) :
    s.waits h ≠ [] ∨ s.done c = true ∨ s.mgr c t = .exited := by
  obtain ⟨al, al', hub, tr, ln, lu⟩ := id st
  cases tr with
  | createCtx j ooo hp => exact absurd h1 h0
  | popDone c' t' k rest hn hp hq hd =>
    simp at h1
    rcases h1 with ⟨rfl, rfl, rfl⟩ | h1
    · exact Or.inr (Or.inl hd)
    · exact absurd h1 h0
  | drain c' t' k rest hn hp hq =>
    simp at h1
    rcases h1 with ⟨rfl, rfl, rfl⟩ | h1
    · exact Or.inr (Or.inr hp)
    · exact absurd h1 h0
  | depMiss c' t' k w rest hn hp he =>
    simp at h1
    rcases h1 with ⟨rfl, rfl, rfl⟩ | h1
    · obtain ⟨p, hp', -⟩ := (minv hr).todo _ _ k (w :: rest) (by rw [hp]; rfl)
      left; rw [hp']; simp
    · exact absurd h1 h0
  | depFail c' t' k w rest hn hp hr' h0' =>
    simp at h1
    rcases h1 with ⟨rfl, rfl, rfl⟩ | h1
    · obtain ⟨p, hp', -⟩ := (minv hr).todo _ _ k (w :: rest) (by rw [hp]; rfl)
      left; rw [hp']; simp
    · exact absurd h1 h0
  | _ => exact absurd (by simpa using h1) h0

theorem exited_done {s : St} (h : Reachable s) : ∀ c t, s.mgr c t = .exited → s.done c = true := by
  refine reach_ind' (P := fun s => ∀ c t, s.mgr c t = .exited → s.done c = true) ?_ ?_ h
  · simp [init]
  · intro s s' hr st ih c t hp
    have hd : s.done c = true → s'.done c = true := done_step st
    obtain ⟨al, al', hub, tr, ln, lu⟩ := id st
    cases tr with
    | createCtx j ooo hp' => exact ih c t hp
    | popDone c' t' k rest hn hp' hq hd' =>
      simp at hp
      rcases upd2_eq hp with ⟨rfl, rfl, h⟩ | h
      · exact hd hd'
      · exact hd (ih c t h)
    | exit c' t' hn hp' hq hd' =>
      simp at hp
      rcases upd2_eq hp with ⟨rfl, rfl, h⟩ | h
      · exact hd hd'
      · exact hd (ih c t h)
    | _ =>
      first
        | exact hd (ih c t (by simpa using hp))
        | (simp at hp
           rcases upd2_eq hp with ⟨rfl, rfl, h⟩ | h
           · simp at h
           · exact hd (ih c t h))

/-- A command without wait list is given up only when its context is destroyed. -/
theorem skip_done {s : St} (h : Reachable s) : ∀ c t x, Obs.skip c t x ∈ s.log → s.waits x = [] → s.done c = true := by
  refine reach_ind' (P := fun s => ∀ c t x, Obs.skip c t x ∈ s.log → s.waits x = [] → s.done c = true) ?_ ?_ h
  · simp [init]
  · intro s s' hr st ih c t x hx hw
    have hb : s.loc x ≠ .unborn := by
      intro hu
      have := mem_obs st.all'.i hx
      simp only [Obs.subj] at this
      rcases st.ln x with l | l
      · rw [l, hu] at this; simp [obsOf] at this
      · rw [hu] at l
        generalize s'.loc x = l' at this l
        cases l <;> simp [obsOf] at this
    rw [step_waits st x hb] at hw
    apply done_step st
    by_cases h0 : Obs.skip c t x ∈ s.log
    · exact ih c t x h0 hw
    · rcases step_skip_new hr st hx h0 with h | h | h
      · exact absurd hw h
      · exact h
      · exact exited_done hr c t h

end Mcut.Api
