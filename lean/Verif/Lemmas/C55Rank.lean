import Verif.Lemmas.C55

/-! Helper lemmas for `Props/C55.lean`: progress of one manager thread. -/
namespace Mcut.Api

/-- Who moves a manager thread. -/
theorem mgr_other {s s' : St} {a : Act} (hs : step s a = some s') {c t : Nat} (h : ¬ ManagerAct c t a) : s'.mgr c t = s.mgr c t := by
  have hub : s.ub = false := by
    cases hu : s.ub with
    | false => rfl
    | true => simp [step, hu] at hs
  simp only [step, hub, Bool.false_eq_true, if_false] at hs
  have oth : ∀ {c' t' : Nat} (p : MPc), ¬ (c = c' ∧ t = t') → s'.mgr = upd2 s.mgr c' t' p → s'.mgr c t = s.mgr c t := by
    intro c' t' p hne e; rw [e, upd2_other _ _ _ _ _ _ hne]
  cases a with
  | createCtx j ooo => simp only at hs; split at hs <;> simp at hs; subst hs; simp [createCtx]
  | createUser j c' => simp only at hs; split at hs <;> simp at hs; subst hs; unfold createUser; split <;> simp
  | enqueue j c' ws blk => simp only at hs; split at hs <;> simp at hs; subst hs; unfold beginEnqueue; split <;> simp
  | enqueue2 j seen =>
    simp only [finishEnqueue] at hs
    split at hs <;> [skip; simp at hs]
    split at hs
    · simp at hs; subst hs; simp
    · split at hs
      · simp only [Option.some.injEq] at hs; rw [← hs]; split <;> simp
      · simp at hs; subst hs; rfl
  | blocking j =>
    simp only [blockStep] at hs
    split at hs
    · split at hs <;> simp at hs <;> subst hs <;> simp [bad]
    · split at hs <;> simp at hs; subst hs; simp
    · split at hs <;> simp at hs <;> subst hs <;> simp [bad]
    · simp at hs
  | signal j h code => simp only at hs; split at hs <;> [skip; simp at hs]; split at hs <;> simp at hs <;> subst hs <;> simp
  | signal2 j =>
    simp only [signalStep] at hs
    split at hs
    · split at hs
      · simp at hs; subst hs; rfl
      · split at hs <;> simp at hs <;> subst hs <;> simp
    · simp at hs; subst hs; simp
    · split at hs
      · simp at hs; subst hs; simp
      · split at hs <;> simp at hs <;> subst hs <;> simp
    · simp at hs; subst hs; simp
    · simp at hs; subst hs; simp
    · simp at hs; subst hs; simp
    · simp at hs
  | setCb j h => simp only at hs; split at hs <;> [skip; simp at hs]; split at hs <;> simp at hs <;> subst hs <;> simp
  | setCb2 j => simp only at hs; split at hs <;> simp at hs; subst hs; simp
  | wait j ws => simp only at hs; split at hs <;> simp at hs; subst hs; simp
  | wait2 j =>
    simp only [waitStep] at hs
    split at hs
    · simp at hs; subst hs; simp
    · split at hs <;> simp at hs <;> subst hs <;> simp
    · split at hs <;> [skip; simp at hs]
      split at hs <;> simp at hs <;> subst hs <;> simp
    · simp at hs
  | release j hs' => simp only at hs; split at hs <;> simp at hs; subst hs; simp
  | release2 j =>
    simp only [relStep] at hs
    split at hs
    · simp at hs; subst hs; simp
    · split at hs <;> simp at hs <;> subst hs <;> simp
    · simp at hs
  | releaseCtx j c' => simp only at hs; split at hs <;> [skip; simp at hs]; split at hs <;> simp at hs <;> subst hs <;> simp
  | releaseCtx2 j => simp only at hs; split at hs <;> simp at hs; subst hs; simp
  | pop c' t' =>
    have hne : ¬ (c = c' ∧ t = t') := by rintro ⟨rfl, rfl⟩; exact h (Or.inl rfl)
    simp only at hs; split at hs <;> [skip; simp at hs]
    simp only [popStep] at hs
    split at hs
    · split at hs <;> simp at hs <;> subst hs <;> exact oth _ hne (by simp; rfl)
    · split at hs <;> simp at hs; subst hs; exact oth _ hne (by simp; rfl)
    · simp at hs; subst hs; simp
    · simp at hs
  | dep c' t' =>
    have hne : ¬ (c = c' ∧ t = t') := by rintro ⟨rfl, rfl⟩; exact h (Or.inr (Or.inl rfl))
    simp only at hs; split at hs <;> [skip; simp at hs]
    simp only [depStep] at hs
    split at hs
    · split at hs <;> simp at hs <;> subst hs <;> exact oth _ hne (by simp; rfl)
    · split at hs <;> [skip; simp at hs]
      split at hs <;> simp at hs <;> subst hs <;> exact oth _ hne (by simp; rfl)
    · split at hs
      · simp at hs; subst hs; rfl
      · by_cases hca : ctxAlive s c' <;> simp only [hca, if_true, if_false, Option.some.injEq] at hs <;> subst hs <;> exact oth _ hne (by simp; rfl)
    · simp at hs; subst hs; exact oth _ hne (by simp; rfl)
    · simp at hs
  | run c' t' r =>
    have hne : ¬ (c = c' ∧ t = t') := by rintro ⟨rfl, rfl⟩; exact h (Or.inr (Or.inr ⟨r, rfl⟩))
    simp only at hs; split at hs <;> [skip; simp at hs]
    simp only [runStep] at hs
    split at hs
    · split at hs <;> [skip; simp at hs]
      by_cases hca : Actor.mg c' t' ∈ s.ctxHold c' <;> simp only [hca, if_true, if_false, Option.some.injEq] at hs <;> subst hs <;> exact oth _ hne (by simp; rfl)
    all_goals first
      | (simp at hs; done)
      | (simp at hs; subst hs; exact oth _ hne (by simp; rfl))
  | newCC c' t' =>
    simp only at hs; split at hs <;> [skip; simp at hs]
    simp only [newCC] at hs
    split at hs <;> [skip; simp at hs]
    split at hs <;> simp at hs; subst hs; rfl

/-- An upper bound for the number of steps a manager thread still takes for a command with `n` awaited events. -/
def rk (n : Nat) : MPc → Nat
  | .idle | .exited => 3 * n + 20
  | .lookup _ todo => 3 * todo.length + 10
  | .block _ _ rest => 3 * rest.length + 11
  | .skip _ => 1
  | .run _ => 7
  | .ran _ _ => 6
  | .fin1 _ _ => 5
  | .fin2 _ _ => 4
  | .fin3 _ _ => 3
  | .fin4 _ _ => 2

theorem rk_own {s s' : St} {a : Act} (hs : step s a = some s') {c t h : Nat} (ha : ManagerAct c t a) (hf : Focus s c t h)
    (hub' : s'.ub = false) (hn : (s'.ev h).ready = false) : rk (s.waits h).length (s'.mgr c t) < rk (s.waits h).length (s.mgr c t) := by
  have hub : s.ub = false := by
    cases hu : s.ub with
    | false => rfl
    | true => simp [step, hu] at hs
  simp only [step, hub, Bool.false_eq_true, if_false] at hs
  have own : ∀ (p : MPc), s'.mgr = upd2 s.mgr c t p → s'.mgr c t = p := by
    intro p e; rw [e, upd2_same]
  have hfe : ∀ k l, expA s (.mg c t) = some (k, l) → s.mgr c t ≠ .idle → s.mgr c t ≠ .exited → h = k := by
    intro k l he h1 h2
    rcases hf with ⟨h' | h', _⟩ | ⟨l', h'⟩
    · exact absurd h' h1
    · exact absurd h' h2
    · rw [he] at h'; simp at h'; exact h'.1.symm
  rcases ha with rfl | rfl | ⟨r, rfl⟩
  · simp only at hs; split at hs <;> [skip; simp at hs]
    simp only [popStep] at hs
    split at hs
    · rename_i k rest hp hq
      have hk : k = ⟨h, s.waits h⟩ := by
        rcases hf with ⟨_, rest', h'⟩ | ⟨l', h'⟩
        · rw [hq] at h'; simp at h'; exact h'.1
        · simp [expA, hp, expM] at h'
      subst hk
      split at hs <;> simp at hs <;> subst hs
      · simp [dropTask, setEv] at hn
      · rw [own _ (by simp; rfl), hp]; simp [rk]
    · rename_i hp hq
      rcases hf with ⟨_, rest', h'⟩ | ⟨l', h'⟩
      · rw [hq] at h'; simp at h'
      · simp [expA, hp, expM] at h'
    · rename_i k rest hp hq
      have hk : k = ⟨h, s.waits h⟩ := by
        rcases hf with ⟨_, rest', h'⟩ | ⟨l', h'⟩
        · rw [hq] at h'; simp at h'; exact h'.1
        · simp [expA, hp, expM] at h'
      subst hk
      simp at hs; subst hs
      simp [dropTask, setEv] at hn
    · simp at hs
  · simp only at hs; split at hs <;> [skip; simp at hs]
    simp only [depStep] at hs
    split at hs
    · rename_i hp
      split at hs <;> simp at hs <;> subst hs <;> rw [own _ (by simp; rfl), hp] <;> simp only [rk, List.length_cons] <;> omega
    · rename_i hp
      split at hs <;> [skip; simp at hs]
      split at hs <;> simp at hs <;> subst hs <;> rw [own _ (by simp; rfl), hp] <;> simp only [rk, List.length_cons] <;> omega
    · rename_i hp
      split at hs
      · simp at hs; subst hs; simp [bad] at hub'
      · by_cases hca : ctxAlive s c <;> simp only [hca, if_true, if_false, Option.some.injEq] at hs <;> subst hs <;> rw [own _ (by simp; rfl), hp] <;> simp [rk]
    · rename_i k hp
      have := hfe k.ev _ (by simp [expA, hp, expM]; rfl) (by rw [hp]; simp) (by rw [hp]; simp)
      subst this
      simp at hs; subst hs
      simp [setEv] at hn
    · simp at hs
  · simp only at hs; split at hs <;> [skip; simp at hs]
    simp only [runStep] at hs
    split at hs
    · rename_i hp
      split at hs <;> [skip; simp at hs]
      by_cases hca : Actor.mg c t ∈ s.ctxHold c <;> simp only [hca, if_true, if_false, Option.some.injEq] at hs <;> subst hs <;> rw [own _ (by simp; rfl), hp] <;> simp [rk]
    · rename_i hp; simp at hs; subst hs; rw [own _ (by simp; rfl), hp]; simp [rk]
    · rename_i hp; simp at hs; subst hs; rw [own _ (by simp; rfl), hp]; simp [rk]
    · rename_i hp; simp at hs; subst hs; rw [own _ (by simp; rfl), hp]; simp [rk]
    · rename_i hp; simp at hs; subst hs; rw [own _ (by simp; rfl), hp]; simp [rk]
    · rename_i k r hp
      have := hfe k.ev _ (by simp [expA, hp, expM]; rfl) (by rw [hp]; simp) (by rw [hp]; simp)
      subst this
      simp at hs; subst hs
      simp [setEv] at hn
    · simp at hs

end Mcut.Api
