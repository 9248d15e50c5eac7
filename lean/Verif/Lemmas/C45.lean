import Verif.Props.C14
import Verif.Lemmas.ApiSkip

/-! Helper lemmas for `Props/C45.lean`. -/
namespace Mcut.Api

theorem waits_of_blk {s : St} (h : Reachable s) : (∀ i c e ws, s.cl i = .submit c e ws true → ws = []) ∧
    (∀ i c e, cBlk (s.cl i) = some (c, e) → s.waits e = []) ∧ ∀ i c e r, (i, Call.blocking c e, r) ∈ s.rets → e ≠ 0 → s.waits e = [] := by
  refine reach_ind' (P := fun s => (∀ i c e ws, s.cl i = .submit c e ws true → ws = []) ∧
    (∀ i c e, cBlk (s.cl i) = some (c, e) → s.waits e = []) ∧ ∀ i c e r, (i, Call.blocking c e, r) ∈ s.rets → e ≠ 0 → s.waits e = []) ?_ ?_ h
  · simp [init, cBlk]
  · rintro s s' hr st ⟨ih1, ih2, ih3⟩
    have hw : ∀ x, s.loc x ≠ .unborn → s'.waits x = s.waits x := step_waits st
    have hb : ∀ i c e, cBlk (s.cl i) = some (c, e) → s.loc e ≠ .unborn := by
      intro i c e hp hu
      have := ((rinv hr).blk i c e hp).1
      rw [hu] at this; simp [inCtx] at this
    have hb3 : ∀ i c e r, (i, Call.blocking c e, r) ∈ s.rets → e ≠ 0 → s.loc e ≠ .unborn := by
      intro i c e r hp h0 hu
      rcases (rinv hr).rets _ hp with ⟨h, -⟩ | ⟨h, -⟩
      · exact h0 h
      · rw [hu] at h; simp [settled] at h
    have g2 : ∀ i c e, cBlk (s.cl i) = some (c, e) → s'.waits e = [] := fun i c e hp => (hw e (hb i c e hp)).trans (ih2 i c e hp)
    have g3 : ∀ i c e r, (i, Call.blocking c e, r) ∈ s.rets → e ≠ 0 → s'.waits e = [] :=
      fun i c e r hp h0 => (hw e (hb3 i c e r hp h0)).trans (ih3 i c e r hp h0)
    have keep : ∀ j p new, s'.cl = upd s.cl j p → s'.rets = new ++ s.rets → (∀ c e ws, p = .submit c e ws true → ws = []) →
        (∀ c e, cBlk p = some (c, e) → s'.waits e = []) → (∀ i c e r, (i, Call.blocking c e, r) ∈ new → e ≠ 0 → s'.waits e = []) →
        (∀ i c e ws, s'.cl i = .submit c e ws true → ws = []) ∧
        (∀ i c e, cBlk (s'.cl i) = some (c, e) → s'.waits e = []) ∧ ∀ i c e r, (i, Call.blocking c e, r) ∈ s'.rets → e ≠ 0 → s'.waits e = [] := by
      intro j p new hcl hre k1 k2 k3
      rw [hcl, hre]
      refine ⟨?_, ?_, ?_⟩
      · intro i c e ws
        exact upd_ind (P := fun v : CPc => v = .submit c e ws true → ws = []) i (fun _ => k1 c e ws) (fun _ => ih1 i c e ws)
      · intro i c e
        exact upd_ind (P := fun v => cBlk v = some (c, e) → s'.waits e = []) i (fun _ => k2 c e) (fun _ => g2 i c e)
      · intro i c e r hm
        rcases List.mem_append.1 hm with hm | hm
        · exact k3 i c e r hm
        · exact g3 i c e r hm
    have keepM : s'.cl = s.cl → s'.rets = s.rets →
        (∀ i c e ws, s'.cl i = .submit c e ws true → ws = []) ∧
        (∀ i c e, cBlk (s'.cl i) = some (c, e) → s'.waits e = []) ∧ ∀ i c e r, (i, Call.blocking c e, r) ∈ s'.rets → e ≠ 0 → s'.waits e = [] := by
      intro hcl hre; rw [hcl, hre]; exact ⟨ih1, g2, g3⟩
    obtain ⟨al, al', hub, tr, ln, lu⟩ := id st
    cases tr with
    | createCtx j ooo hp => exact keep j .idle [_] (by simp [createCtx, ret]) (by simp [createCtx, ret]; rfl) (by simp) (by simp [cBlk]) (by simp)
    | enqueue j c ws blk hp hw hb hc =>
      refine keep j (.submit c s.counter ws blk) [] (by simp) (by simp) ?_ (by simp [cBlk]) (by simp)
      intro c' e ws' hs; simp at hs; obtain ⟨_, _, rfl, h⟩ := hs; exact hb h
    | enqueueBad j c ws blk hp hc =>
      refine keep j .idle [(j, (if blk = true then .blocking c 0 else .enqueue c 0 ws), INVALID_VALUE)] (by simp [ret]) (by simp [ret]) (by simp) (by simp [cBlk]) ?_
      intro i c e r hm h0
      cases blk <;> simp at hm; exact absurd hm.2.1.2 h0
    | enqueueUnknown j c h ws blk hp hr =>
      refine keep j .idle [(j, (if blk = true then .blocking c 0 else .enqueue c 0 ws), INVALID_VALUE)] (by simp [ret]) (by simp [ret]) (by simp) (by simp [cBlk]) ?_
      intro i c e r hm h0
      cases blk <;> simp at hm; exact absurd hm.2.1.2 h0
    | enqueueBlk j c h ws t ot seen hp hr ht hlt =>
      refine keep j (.bwait c h) [] (by simp) (by simp) (by simp) ?_ (by simp)
      intro c' e he; simp [cBlk] at he; obtain ⟨_, rfl⟩ := he
      simp
      rw [al.i2.so j c h ws true hp]; exact ih1 j c h ws hp
    | bwait j c h hp he =>
      refine keep j (.bblock c h) [] (by simp) (by simp) (by simp) ?_ (by simp)
      intro c' e he; exact g2 j c' e (by rw [hp]; exact he)
    | bblock j c h hp hr =>
      refine keep j (.brel c h (s.ev h).rt) [] (by simp) (by simp) (by simp) ?_ (by simp)
      intro c' e he; exact g2 j c' e (by rw [hp]; exact he)
    | brel j c h r hp he =>
      refine keep j .idle [(j, .blocking c h, r)] (by simp [ret]) (by simp [ret]) (by simp) (by simp [cBlk]) ?_
      intro i c' e r' hm _
      simp at hm; obtain ⟨_, ⟨rfl, rfl⟩, _⟩ := hm
      exact g2 j c' e (by rw [hp]; rfl)
    | _ =>
      first
        | (refine keepM ?_ ?_ <;> simp; done)
        | (refine keep _ _ _ (by simp [ret]; rfl) (by simp [ret]; first | rfl | exact (List.nil_append _).symm | exact (List.singleton_append).symm) (by simp) (by simp [cBlk]) (by simp))

end Mcut.Api
