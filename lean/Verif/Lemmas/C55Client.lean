import Verif.Lemmas.C55Rank

/-! Helper lemmas for `Props/C55.lean`: progress of one client thread. -/
namespace Mcut.Api

theorem cl_other {s s' : St} {a : Act} (hs : step s a = some s') {i : Nat} (h : clientOf a ≠ some i) : s'.cl i = s.cl i := by
  have hub : s.ub = false := by
    cases hu : s.ub with
    | false => rfl
    | true => simp [step, hu] at hs
  simp only [step, hub, Bool.false_eq_true, if_false] at hs
  have oth : ∀ {j : Nat} (p : CPc), j ≠ i → s'.cl = upd s.cl j p → s'.cl i = s.cl i := by
    intro j p hne e; rw [e, upd_other _ _ _ _ (Ne.symm hne)]
  cases a with
  | createCtx j ooo =>
    have hj : j ≠ i := fun e => h (by simp [clientOf, e])
    simp only at hs; split at hs <;> simp at hs; subst hs; exact oth _ hj (by simp [createCtx]; rfl)
  | createUser j c' =>
    have hj : j ≠ i := fun e => h (by simp [clientOf, e])
    simp only at hs; split at hs <;> simp at hs; subst hs; unfold createUser; split <;> simp [upd_other _ _ _ _ (Ne.symm hj)]
  | enqueue j c' ws blk =>
    have hj : j ≠ i := fun e => h (by simp [clientOf, e])
    simp only at hs; split at hs <;> simp at hs; subst hs; unfold beginEnqueue; split <;> simp [upd_other _ _ _ _ (Ne.symm hj)]
  | enqueue2 j seen =>
    have hj : j ≠ i := fun e => h (by simp [clientOf, e])
    simp only [finishEnqueue] at hs
    split at hs <;> [skip; simp at hs]
    split at hs
    · simp at hs; subst hs; simp [upd_other _ _ _ _ (Ne.symm hj)]
    · split at hs
      · simp only [Option.some.injEq] at hs; rw [← hs]; split <;> simp [upd_other _ _ _ _ (Ne.symm hj)]
      · simp at hs; subst hs; rfl
  | blocking j =>
    have hj : j ≠ i := fun e => h (by simp [clientOf, e])
    simp only [blockStep] at hs
    split at hs
    · split at hs <;> simp at hs <;> subst hs <;> simp [upd_other _ _ _ _ (Ne.symm hj)]
    · split at hs <;> simp at hs; subst hs; simp [upd_other _ _ _ _ (Ne.symm hj)]
    · split at hs <;> simp at hs <;> subst hs <;> simp [upd_other _ _ _ _ (Ne.symm hj)]
    · simp at hs
  | signal j h' code =>
    have hj : j ≠ i := fun e => h (by simp [clientOf, e])
    simp only at hs; split at hs <;> [skip; simp at hs]; split at hs <;> simp at hs <;> subst hs <;> simp [upd_other _ _ _ _ (Ne.symm hj)]
  | signal2 j =>
    have hj : j ≠ i := fun e => h (by simp [clientOf, e])
    simp only [signalStep] at hs
    split at hs
    · split at hs
      · simp at hs; subst hs; rfl
      · split at hs <;> simp at hs <;> subst hs <;> simp [upd_other _ _ _ _ (Ne.symm hj)]
    · simp at hs; subst hs; simp [upd_other _ _ _ _ (Ne.symm hj)]
    · split at hs
      · simp at hs; subst hs; simp [upd_other _ _ _ _ (Ne.symm hj)]
      · split at hs <;> simp at hs <;> subst hs <;> simp [upd_other _ _ _ _ (Ne.symm hj)]
    · simp at hs; subst hs; simp [upd_other _ _ _ _ (Ne.symm hj)]
    · simp at hs; subst hs; simp [upd_other _ _ _ _ (Ne.symm hj)]
    · simp at hs; subst hs; simp [upd_other _ _ _ _ (Ne.symm hj)]
    · simp at hs
  | setCb j h' =>
    have hj : j ≠ i := fun e => h (by simp [clientOf, e])
    simp only at hs; split at hs <;> [skip; simp at hs]; split at hs <;> simp at hs <;> subst hs <;> simp [upd_other _ _ _ _ (Ne.symm hj)]
  | setCb2 j =>
    have hj : j ≠ i := fun e => h (by simp [clientOf, e])
    simp only at hs; split at hs <;> simp at hs; subst hs; simp [upd_other _ _ _ _ (Ne.symm hj)]
  | wait j ws =>
    have hj : j ≠ i := fun e => h (by simp [clientOf, e])
    simp only at hs; split at hs <;> simp at hs; subst hs; simp [upd_other _ _ _ _ (Ne.symm hj)]
  | wait2 j =>
    have hj : j ≠ i := fun e => h (by simp [clientOf, e])
    simp only [waitStep] at hs
    split at hs
    · simp at hs; subst hs; simp [upd_other _ _ _ _ (Ne.symm hj)]
    · split at hs <;> simp at hs <;> subst hs <;> simp [upd_other _ _ _ _ (Ne.symm hj)]
    · split at hs <;> [skip; simp at hs]
      split at hs <;> simp at hs <;> subst hs <;> simp [upd_other _ _ _ _ (Ne.symm hj)]
    · simp at hs
  | release j hs' =>
    have hj : j ≠ i := fun e => h (by simp [clientOf, e])
    simp only at hs; split at hs <;> simp at hs; subst hs; simp [upd_other _ _ _ _ (Ne.symm hj)]
  | release2 j =>
    have hj : j ≠ i := fun e => h (by simp [clientOf, e])
    simp only [relStep] at hs
    split at hs
    · simp at hs; subst hs; simp [upd_other _ _ _ _ (Ne.symm hj)]
    · split at hs <;> simp at hs <;> subst hs <;> simp [upd_other _ _ _ _ (Ne.symm hj)]
    · simp at hs
  | releaseCtx j c' =>
    have hj : j ≠ i := fun e => h (by simp [clientOf, e])
    simp only at hs; split at hs <;> [skip; simp at hs]; split at hs <;> simp at hs <;> subst hs <;> simp [upd_other _ _ _ _ (Ne.symm hj)]
  | releaseCtx2 j =>
    have hj : j ≠ i := fun e => h (by simp [clientOf, e])
    simp only at hs; split at hs <;> simp at hs; subst hs; simp [upd_other _ _ _ _ (Ne.symm hj)]
  | pop c' t' =>
    simp only at hs; split at hs <;> [skip; simp at hs]
    simp only [popStep] at hs
    split at hs
    · split at hs <;> simp at hs <;> subst hs <;> simp
    · split at hs <;> simp at hs; subst hs; simp
    · simp at hs; subst hs; simp
    · simp at hs
  | dep c' t' =>
    simp only at hs; split at hs <;> [skip; simp at hs]
    simp only [depStep] at hs
    split at hs
    · split at hs <;> simp at hs <;> subst hs <;> simp
    · split at hs <;> [skip; simp at hs]
      split at hs <;> simp at hs <;> subst hs <;> simp
    · split at hs
      · simp at hs; subst hs; rfl
      · by_cases hca : ctxAlive s c' <;> simp only [hca, if_true, if_false, Option.some.injEq] at hs <;> subst hs <;> simp
    · simp at hs; subst hs; simp
    · simp at hs
  | run c' t' r =>
    simp only at hs; split at hs <;> [skip; simp at hs]
    simp only [runStep] at hs
    split at hs
    · split at hs <;> [skip; simp at hs]
      by_cases hca : Actor.mg c' t' ∈ s.ctxHold c' <;> simp only [hca, if_true, if_false, Option.some.injEq] at hs <;> subst hs <;> simp
    all_goals first
      | (simp at hs; done)
      | (simp at hs; subst hs; simp)
  | newCC c' t' =>
    simp only at hs; split at hs <;> [skip; simp at hs]
    simp only [newCC] at hs
    split at hs <;> [skip; simp at hs]
    split at hs <;> simp at hs; subst hs; rfl

/-- An upper bound for the number of steps of a call. -/
def crk : CPc → Nat
  | .idle => 0
  | .submit _ _ _ _ => 10
  | .bwait _ _ => 4
  | .bblock _ _ => 3
  | .brel _ _ _ => 2
  | .sig _ _ => 7
  | .sig1 _ _ => 6
  | .sig2 _ _ => 5
  | .sig3 _ _ => 4
  | .sig4 _ _ => 3
  | .sig5 _ _ => 2
  | .setcb _ => 1
  | .wait _ todo => 2 * todo.length + 1
  | .waitBlock _ _ rest => 2 * rest.length + 2
  | .rel todo => todo.length + 1
  | .relCtx _ => 1

theorem crk_own {s s' : St} {a : Act} (hs : step s a = some s') {i : Nat} (ha : clientOf a = some i) (hc : InCall s i) (hub' : s'.ub = false) :
    crk (s'.cl i) < crk (s.cl i) ∧ (∀ w ∈ awaited (s'.cl i), w ∈ awaited (s.cl i)) ∧
    (∀ c h, s'.cl i = .bwait c h ∨ s'.cl i = .bblock c h → s.cl i = .bwait c h ∨ s.cl i = .bblock c h ∨ Submitted s' h) := by
  have hub : s.ub = false := by
    cases hu : s.ub with
    | false => rfl
    | true => simp [step, hu] at hs
  simp only [step, hub, Bool.false_eq_true, if_false] at hs
  have own : ∀ {p : CPc}, s'.cl = upd s.cl i p → s'.cl i = p := by
    intro p e; rw [e, upd_same]
  unfold InCall at hc
  cases a <;> simp only [clientOf, Option.some.injEq, reduceCtorEq] at ha <;> subst ha
  case createCtx j ooo => simp [hc] at hs
  case createUser => simp [hc] at hs
  case enqueue => simp [hc] at hs
  case signal => simp [hc] at hs
  case setCb => simp [hc] at hs
  case wait => simp [hc] at hs
  case release => simp [hc] at hs
  case releaseCtx => simp [hc] at hs
  case enqueue2 =>
    simp only [finishEnqueue] at hs
    split at hs <;> [skip; simp at hs]
    rename_i hp
    rw [hp]
    split at hs
    · simp at hs; rw [own (p := .idle) (by subst hs; simp)]; simp [crk, awaited]
    · split at hs
      · simp only [Option.some.injEq] at hs
        split at hs
        · rw [own (p := .bwait _ _) (by rw [← hs]; simp; rfl)]; simp [crk, awaited]
          exact ⟨_, _, by rw [← hs]; simp [setC, obs]; exact Or.inl ⟨rfl, rfl⟩⟩
        · rw [own (p := .idle) (by rw [← hs]; simp)]; simp [crk, awaited]
      · simp at hs; subst hs; simp [bad] at hub'
  case blocking =>
    simp only [blockStep] at hs
    split at hs
    · rename_i hp
      rw [hp]
      split at hs <;> simp at hs
      · rw [own (p := .bblock _ _) (by subst hs; simp; rfl)]; simp +contextual [crk, awaited]
      · subst hs; simp [bad] at hub'
    · rename_i hp
      rw [hp]
      split at hs <;> simp at hs
      rw [own (p := .brel _ _ _) (by subst hs; simp; rfl)]; simp [crk, awaited]
    · rename_i hp
      rw [hp]
      split at hs <;> simp at hs
      · rw [own (p := .idle) (by subst hs; simp)]; simp [crk, awaited]
      · subst hs; simp [bad] at hub'
    · simp at hs
  case signal2 =>
    simp only [signalStep] at hs
    split at hs
    · rename_i hp
      rw [hp]
      split at hs
      · simp at hs; subst hs; simp [bad] at hub'
      · split at hs <;> simp at hs
        · rw [own (p := .idle) (by subst hs; simp)]; simp [crk, awaited]
        · rw [own (p := .sig1 _ _) (by subst hs; simp; rfl)]; simp [crk, awaited]
    · rename_i hp
      rw [hp]; simp at hs; rw [own (p := .sig2 _ _) (by subst hs; simp; rfl)]; simp [crk, awaited]
    · rename_i hp
      rw [hp]
      split at hs
      · simp at hs; rw [own (p := .sig3 _ _) (by subst hs; simp; rfl)]; simp [crk, awaited]
      · split at hs <;> simp at hs
        · rw [own (p := .sig3 _ _) (by subst hs; simp; rfl)]; simp [crk, awaited]
        · rw [own (p := .idle) (by subst hs; simp)]; simp [crk, awaited]
    · rename_i hp
      rw [hp]; simp at hs; rw [own (p := .sig4 _ _) (by subst hs; simp; rfl)]; simp [crk, awaited]
    · rename_i hp
      rw [hp]; simp at hs; rw [own (p := .sig5 _ _) (by subst hs; simp; rfl)]; simp [crk, awaited]
    · rename_i hp
      rw [hp]; simp at hs; rw [own (p := .idle) (by subst hs; simp)]; simp [crk, awaited]
    · simp at hs
  case setCb2 =>
    simp only at hs; split at hs <;> simp at hs
    rename_i hp
    rw [hp, own (p := .idle) (by subst hs; simp)]; simp [crk, awaited]
  case wait2 =>
    simp only [waitStep] at hs
    split at hs
    · rename_i hp
      rw [hp]; simp at hs; rw [own (p := .idle) (by subst hs; simp)]; simp [crk, awaited]
    · rename_i hp
      rw [hp]
      split at hs <;> simp at hs
      · rw [own (p := .waitBlock _ _ _) (by subst hs; simp; rfl)]; simp [crk, awaited]; omega
      · rw [own (p := .idle) (by subst hs; simp)]; simp [crk, awaited]
    · rename_i hp
      rw [hp]
      split at hs <;> [skip; simp at hs]
      split at hs <;> simp at hs
      · rw [own (p := .wait _ _) (by subst hs; simp; rfl)]; simp +contextual [crk, awaited]
      · rw [own (p := .idle) (by subst hs; simp)]; simp [crk, awaited]
    · simp at hs
  case release2 =>
    simp only [relStep] at hs
    split at hs
    · rename_i hp
      rw [hp]; simp at hs; rw [own (p := .idle) (by subst hs; simp)]; simp [crk, awaited]
    · rename_i hp
      rw [hp]
      split at hs <;> simp at hs
      · rw [own (p := .rel _) (by subst hs; simp; rfl)]; simp [crk, awaited]
      · rw [own (p := .idle) (by subst hs; simp)]; simp [crk, awaited]
    · simp at hs
  case releaseCtx2 =>
    simp only at hs; split at hs <;> simp at hs
    rename_i hp
    rw [hp, own (p := .idle) (by subst hs; simp)]; simp [crk, awaited]

/-- A client inside a call is blocked only by events that are not ready. -/
theorem client_move {s : St} (hub : s.ub = false) {i : Nat} (hc : InCall s i) (hw : ∀ w ∈ awaited (s.cl i), (s.ev w).ready = true)
    (hb : ∀ c h, s.cl i = .bblock c h → (s.ev h).ready = true) : ∃ a s', clientOf a = some i ∧ step s a = some s' := by
  have enab : ∀ a, clientOf a = some i → (step s a).isSome = true → ∃ a s', clientOf a = some i ∧ step s a = some s' := by
    intro a h1 h2
    obtain ⟨s', h3⟩ := Option.isSome_iff_exists.1 h2
    exact ⟨a, s', h1, h3⟩
  unfold InCall at hc
  cases hp : s.cl i with
  | idle => exact absurd hp hc
  | submit c h ws blk =>
    refine enab (.enqueue2 i (fun _ => true)) rfl ?_
    simp only [step, hub, finishEnqueue, hp, Bool.false_eq_true, if_false]
    split
    · rfl
    · split <;> rfl
  | bwait c h => refine enab (.blocking i) rfl ?_; simp only [step, hub, blockStep, hp, Bool.false_eq_true, if_false]; split <;> rfl
  | bblock c h => refine enab (.blocking i) rfl ?_; simp [step, hub, blockStep, hp, hb c h hp]
  | brel c h r => refine enab (.blocking i) rfl ?_; simp only [step, hub, blockStep, hp, Bool.false_eq_true, if_false]; split <;> rfl
  | sig h code =>
    refine enab (.signal2 i) rfl ?_; simp only [step, hub, signalStep, hp, Bool.false_eq_true, if_false]
    split
    · rfl
    · split <;> rfl
  | sig1 h code => refine enab (.signal2 i) rfl ?_; simp [step, hub, signalStep, hp]
  | sig2 h code =>
    refine enab (.signal2 i) rfl ?_; simp only [step, hub, signalStep, hp, Bool.false_eq_true, if_false]
    split
    · rfl
    · split <;> rfl
  | sig3 h r => refine enab (.signal2 i) rfl ?_; simp [step, hub, signalStep, hp]
  | sig4 h r => refine enab (.signal2 i) rfl ?_; simp [step, hub, signalStep, hp]
  | sig5 h r => refine enab (.signal2 i) rfl ?_; simp [step, hub, signalStep, hp]
  | setcb h => refine enab (.setCb2 i) rfl ?_; simp [step, hub, hp]
  | wait all todo =>
    refine enab (.wait2 i) rfl ?_; simp only [step, hub, waitStep, hp, Bool.false_eq_true, if_false]
    cases todo with
    | nil => rfl
    | cons w rest => simp only; split <;> rfl
  | waitBlock all w rest =>
    refine enab (.wait2 i) rfl ?_; simp only [step, hub, waitStep, hp, Bool.false_eq_true, if_false]
    rw [if_pos (hw w (by simp [hp, awaited]))]; split <;> rfl
  | rel todo =>
    refine enab (.release2 i) rfl ?_; simp only [step, hub, relStep, hp, Bool.false_eq_true, if_false]
    cases todo with
    | nil => rfl
    | cons w rest => simp only; split <;> rfl
  | relCtx c => refine enab (.releaseCtx2 i) rfl ?_; simp [step, hub, hp]

/-- A blocking call waits for a submitted command. -/
theorem blocking_submitted {s : St} (hr : Reachable s) (hub : s.ub = false) {i c h : Nat} (hc : s.cl i = .bwait c h ∨ s.cl i = .bblock c h) : Submitted s h := by
  have : All s ∧ (s.ub = false → ∀ i c h, s.cl i = .bwait c h ∨ s.cl i = .bblock c h → Submitted s h) := by
    refine Reach.inv (P := fun s => All s ∧ (s.ub = false → ∀ i c h, s.cl i = .bwait c h ∨ s.cl i = .bblock c h → Submitted s h)) ?_ ⟨all_init, fun _ i c h hc => by simp [init] at hc⟩ hr
    · rintro s a s' ⟨al, ih⟩ hs
      have st := step_of al hs
      refine ⟨st.all', fun hub' i c h hc => ?_⟩
      have mono : Submitted s h → Submitted s' h := by
        rintro ⟨c, t, hm⟩
        rcases step_log st with e | ⟨o, e⟩
        · exact ⟨c, t, by rw [e]; exact hm⟩
        · exact ⟨c, t, by rw [e]; exact List.mem_cons_of_mem _ hm⟩
      by_cases ha : clientOf a = some i
      · by_cases hin : InCall s i
        · rcases (crk_own hs ha hin hub').2.2 c h hc with h1 | h1 | h1
          · exact mono (ih st.ub i c h (Or.inl h1))
          · exact mono (ih st.ub i c h (Or.inr h1))
          · exact h1
        · exfalso
          unfold InCall at hin
          simp only [not_not] at hin
          simp only [step, st.ub, Bool.false_eq_true, if_false] at hs
          have own : ∀ {p : CPc}, s'.cl = upd s.cl i p → s'.cl i = p := by
            intro p e; rw [e, upd_same]
          cases a <;> simp only [clientOf, Option.some.injEq, reduceCtorEq] at ha <;> subst ha
          case createCtx => simp [hin] at hs; rw [own (p := .idle) (by subst hs; simp [createCtx])] at hc; simp at hc
          case createUser => simp [hin] at hs; rw [own (p := .idle) (by subst hs; unfold createUser; split <;> simp)] at hc; simp at hc
          case enqueue =>
            simp only at hs; split at hs <;> simp at hs
            unfold beginEnqueue at hs
            split at hs
            · rw [own (p := .idle) (by subst hs; simp)] at hc; simp at hc
            · rw [own (p := .submit _ _ _ _) (by subst hs; simp; rfl)] at hc; simp at hc
          case signal =>
            simp only at hs; split at hs <;> [skip; simp at hs]
            split at hs <;> simp at hs
            · rw [own (p := .sig _ _) (by subst hs; simp; rfl)] at hc; simp at hc
            · rw [own (p := .idle) (by subst hs; simp)] at hc; simp at hc
          case setCb =>
            simp only at hs; split at hs <;> [skip; simp at hs]
            split at hs <;> simp at hs
            · rw [own (p := .setcb _) (by subst hs; simp; rfl)] at hc; simp at hc
            · rw [own (p := .idle) (by subst hs; simp)] at hc; simp at hc
          case wait => simp only at hs; split at hs <;> simp at hs; rw [own (p := .wait _ _) (by subst hs; simp; rfl)] at hc; simp at hc
          case release => simp only at hs; split at hs <;> simp at hs; rw [own (p := .rel _) (by subst hs; simp; rfl)] at hc; simp at hc
          case releaseCtx =>
            simp only [hin, if_true] at hs
            split at hs <;> simp at hs
            · rw [own (p := .relCtx _) (by subst hs; simp; rfl)] at hc; simp at hc
            · rw [own (p := .idle) (by subst hs; simp)] at hc; simp at hc
          case enqueue2 => simp [finishEnqueue, hin] at hs
          case blocking => simp [blockStep, hin] at hs
          case signal2 => simp [signalStep, hin] at hs
          case setCb2 => simp [hin] at hs
          case wait2 => simp [waitStep, hin] at hs
          case release2 => simp [relStep, hin] at hs
          case releaseCtx2 => simp [hin] at hs
      · rw [cl_other hs ha] at hc
        exact mono (ih st.ub i c h hc)
  exact this.2 hub i c h hc

end Mcut.Api
