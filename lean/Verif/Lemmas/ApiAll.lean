import Verif.Lemmas.ApiHold2
/-! Induction over the reachable states of the API model with all base invariants at hand. -/
namespace Mcut.Api

/-- The base invariants together. -/
structure All (s : St) : Prop where
  i : Inv s
  i2 : Inv2 s
  hi : HInv s

theorem all_of {s : St} (h : Reachable s) : All s := by
  obtain ⟨a, b, c⟩ := reachable_hinv h; exact ⟨a, b, c⟩

theorem all_init : All init := ⟨inv_init, inv2_init, hinv_init⟩

/-- One step from a state with the base invariants. -/
structure Step (s s' : St) : Prop where
  all : All s
  all' : All s'
  ub : s.ub = false
  tr : Tr s s'
  ln : ∀ h, s'.loc h = s.loc h ∨ Next (s.loc h) (s'.loc h)
  lu : s'.counter = s.counter → ∀ h, s.loc h = .unborn → s'.loc h = .unborn

theorem step_of {s s' : St} {a : Act} (h : All s) (hs : step s a = some s') : Step s s' := by
  have hu : s.ub = false := by
    cases hu : s.ub with
    | false => rfl
    | true => simp [step, hu] at hs
  obtain ⟨i, i2, hi⟩ := h
  have hc : s.inited = true ∨ s.counter = 0 := by
    cases hi : s.inited with
    | true => exact Or.inl rfl
    | false => exact Or.inr (i2.ini hi).1
  obtain ⟨b, e⟩ := step_eff s s' a i i2.so hc hs
  have tr := step_tr s s' a hs
  obtain ⟨a', he⟩ := tr_heff i hi (e.locNext i) (e.locUnborn i) tr
  exact ⟨⟨i, i2, hi⟩, ⟨e.inv i, tr_inv2 i i2 (e.locNext i) (e.locUnborn i) tr, he.inv hi⟩, hu, tr, e.locNext i, e.locUnborn i⟩

theorem reach_ind {P : St → Prop} (h0 : P init) (hs : ∀ s s', Step s s' → P s → P s') {s : St} (h : Reachable s) : P s := by
  have : All s ∧ P s := by
    refine Reach.inv (P := fun s => All s ∧ P s) ?_ ⟨all_init, h0⟩ h
    rintro s a s' ⟨al, p⟩ hst
    have st := step_of al hst
    exact ⟨st.all', hs s s' st p⟩
  exact this.2

/-- Along an execution: a relation that is reflexive, transitive and holds for every step. -/
theorem reach_rel {R : St → St → Prop} (hr : ∀ s, R s s) (ht : ∀ s t u, All s → All t → R s t → R t u → R s u)
    (hs : ∀ s s', Step s s' → R s s') {s s' : St} (h : Reachable s) (h' : Reach step s s') : R s s' := by
  have : All s' ∧ R s s' := by
    refine Reach.inv (P := fun s' => All s' ∧ R s s') ?_ ⟨all_of h, hr s⟩ h'
    rintro t a u ⟨al, p⟩ hst
    have st := step_of al hst
    exact ⟨st.all', ht s t u (all_of h) al p (hs t u st)⟩
  exact this.2

theorem Reachable.trans {s s' : St} (h : Reachable s) (h' : Reach step s s') : Reachable s' := by
  obtain ⟨x, hx⟩ := h; obtain ⟨y, hy⟩ := h'
  exact ⟨x ++ y, by rw [runSched_append, hx]; exact hy⟩

end Mcut.Api
