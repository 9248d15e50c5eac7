import Verif.Lemmas.C15
/-! Wake-ups on the work queue with a single consumer (helper lemmas). -/
namespace Mcut.Queue
variable {α : Type}

/-- A thread that is consuming is one of the `nc` consumers. -/
def ConsOnly (nc : Nat) (s : St α) : Prop := ∀ t, s.pc t ≠ .idle → s.pc t ≠ .notifying → t < nc

theorem consOnly_step (n nc : Nat) (s : St α) (a : Act α) (s' : St α) (h : ConsOnly nc s) (hs : step n nc s a = some s') :
    ConsOnly nc s' := by
  have key : ∀ (t : Nat) (p : PC), (t < nc ∨ p = .idle ∨ p = .notifying) → ∀ u, upd s.pc t p u ≠ .idle →
      upd s.pc t p u ≠ .notifying → u < nc := by
    intro t p hp u h1 h2
    by_cases hut : u = t
    · subst hut
      simp only [upd_same] at h1 h2
      rcases hp with hp | hp | hp
      · exact hp
      · exact absurd hp h1
      · exact absurd hp h2
    · rw [upd_other _ _ _ _ hut] at h1 h2; exact h u h1 h2
  have knot : ∀ w s1, notifyOne n s w = some s1 → ConsOnly nc s1 := by
    intro w s1 hn
    unfold notifyOne at hn
    split at hn
    · split at hn
      · rename_i t hc
        cases hn
        exact key t .woken (Or.inl (h t (by rw [hc.2]; simp) (by rw [hc.2]; simp)))
      · cases hn
    · split at hn
      · cases hn; exact h
      · cases hn
  have kpop : ∀ t, ConsOnly nc (popHead s t) := by
    intro t u
    have : (popHead s t).pc = upd s.pc t .idle := by
      unfold popHead; split <;> rfl
    rw [this]; exact key t .idle (Or.inr (Or.inl rfl)) u
  cases a with
  | push t v =>
    simp only [step] at hs; split at hs
    · cases hs; exact key t _ (Or.inr (Or.inr rfl))
    · cases hs
  | notify t w =>
    simp only [step] at hs; split at hs
    · cases hn : notifyOne n s w with
      | none => simp [hn] at hs
      | some s1 =>
        simp [hn] at hs; subst hs
        have h1 := knot w s1 hn
        intro u hu1 hu2
        by_cases hut : u = t
        · subst hut; simp at hu1
        · simp only [upd_other _ _ _ _ hut] at hu1 hu2; exact h1 u hu1 hu2
    · cases hs
  | beginTry t =>
    simp only [step] at hs; split at hs
    · rename_i hc; cases hs; exact key t _ (Or.inl hc.1)
    · cases hs
  | finishTry t =>
    simp only [step] at hs; split at hs
    · split at hs
      · cases hs; exact key t _ (Or.inr (Or.inl rfl))
      · cases hs; exact kpop t
    · cases hs
  | beginWait t =>
    simp only [step] at hs; split at hs
    · rename_i hc; cases hs; exact key t _ (Or.inl hc.1)
    · cases hs
  | check t =>
    simp only [step] at hs; split at hs
    · rename_i hpc
      have : t < nc := h t (by rw [hpc]; simp) (by rw [hpc]; simp)
      split at hs <;> · cases hs; exact key t _ (Or.inl this)
    · cases hs
  | block t =>
    simp only [step] at hs; split at hs
    · rename_i hpc
      have : t < nc := h t (by rw [hpc]; simp) (by rw [hpc]; simp)
      cases hs; exact key t _ (Or.inl this)
    · cases hs
  | spurious t =>
    simp only [step] at hs; split at hs
    · rename_i hpc
      have : t < nc := h t (by rw [hpc]; simp) (by rw [hpc]; simp)
      cases hs; exact key t _ (Or.inl this)
    · cases hs
  | reacquire t =>
    simp only [step] at hs; split at hs
    · rename_i hpc
      have : t < nc := h t (by rw [hpc.1]; simp) (by rw [hpc.1]; simp)
      cases hs; exact key t _ (Or.inl this)
    · cases hs
  | take t =>
    simp only [step] at hs; split at hs
    · split at hs
      · cases hs; exact kpop t
      · cases hs; exact key t _ (Or.inr (Or.inl rfl))
    · cases hs
  | setDone => simp only [step] at hs; cases hs; exact h
  | disrupt t w =>
    simp only [step] at hs; split at hs
    · cases hn : notifyOne n s w with
      | none => simp [hn] at hs
      | some s1 => simp [hn] at hs; subst hs; exact knot w s1 hn
    · cases hs

theorem consOnly_init (nc : Nat) : ConsOnly nc (init : St α) := by
  intro t h; exact absurd rfl h

/-- With one consumer, a notification leaves it awake. -/
theorem notify_wakes (n : Nat) (hn0 : 0 < n) (s s1 : St α) (hc : ConsOnly 1 s) (w : Option Nat)
    (hn : notifyOne n s w = some s1) :
    s1.pc 0 ≠ .blocked ∧ (s.pc 0 ≠ .blocked → s1.pc 0 = s.pc 0) ∧ s1.head = s.head ∧ s1.tail = s.tail ∧
      (∀ u, u ≠ 0 → s1.pc u = s.pc u) ∧ s1.headLock = s.headLock ∧ s1.done = s.done ∧ s1.disrupted = s.disrupted ∧
      (s.pc 0 = .blocked → s1.pc 0 = .woken) := by
  unfold notifyOne at hn
  split at hn
  · rename_i t
    split at hn
    · rename_i hc'
      cases hn
      have ht : t < 1 := hc t (by rw [hc'.2]; simp) (by rw [hc'.2]; simp)
      have ht : t = 0 := by omega
      subst ht
      refine ⟨by simp, fun h => absurd hc'.2 h, rfl, rfl, fun u hu => upd_other _ _ _ _ hu, rfl, rfl, rfl, by simp⟩
    · cases hn
  · split at hn
    · rename_i hc'
      cases hn
      refine ⟨hc' 0 hn0, fun _ => rfl, rfl, rfl, fun _ _ => rfl, rfl, rfl, rfl, fun h => absurd h (hc' 0 hn0)⟩
    · cases hn

/-- The race window excluded: no push while the consumer has found the queue empty but is not yet blocked. -/
def stepNoRace (n : Nat) (s : St α) (a : Act α) : Option (St α) :=
  match a with
  | .push t v => if s.pc 0 = .pendingBlock then none else step n 1 s (.push t v)
  | a => step n 1 s a

theorem stepNoRace_step (n : Nat) (s : St α) (a : Act α) (s' : St α) (hs : stepNoRace n s a = some s') :
    step n 1 s a = some s' ∧ (∀ t v, a = .push t v → s.pc 0 ≠ .pendingBlock) := by
  unfold stepNoRace at hs
  split at hs
  · split at hs
    · cases hs
    · rename_i h; exact ⟨hs, fun _ _ _ => h⟩
  · rename_i hne; exact ⟨hs, fun t v e => absurd e (hne t v)⟩

/-- Wake-up invariant. -/
def Awake (n : Nat) (s : St α) : Prop :=
  (s.pc 0 = .blocked → s.head = s.tail ∨ ∃ t, t < n ∧ s.pc t = .notifying) ∧
  (s.pc 0 = .pendingBlock → s.head = s.tail)

theorem awake_step (n : Nat) (hn0 : 0 < n) (s : St α) (a : Act α) (s' : St α)
    (h : ConsOnly 1 s ∧ Awake n s) (hs : stepNoRace n s a = some s') : ConsOnly 1 s' ∧ Awake n s' := by
  obtain ⟨hco, hb, hp⟩ := h
  obtain ⟨hst, hnr⟩ := stepNoRace_step n s a s' hs
  refine ⟨consOnly_step n 1 s a s' hco hst, ?_⟩
  have cons0 : ∀ t, s.pc t ≠ .idle → s.pc t ≠ .notifying → t = 0 := by
    intro t h1 h2; have := hco t h1 h2; omega
  have popPc : ∀ t, (popHead s t).pc = upd s.pc t .idle := by
    intro t; unfold popHead; split <;> rfl
  cases a with
  | push t v =>
    have hnp := hnr t v rfl
    simp only [step] at hst; split at hst
    · rename_i hc
      cases hst
      refine ⟨fun h0 => Or.inr ⟨t, hc.1, by simp⟩, fun h0 => ?_⟩
      by_cases ht : t = 0
      · subst ht; simp at h0
      · have : (0:Nat) ≠ t := fun e => ht e.symm
        simp only [upd_other _ _ _ _ this] at h0
        exact absurd h0 hnp
    · cases hst
  | notify t w =>
    simp only [step] at hst; split at hst
    · rename_i hc
      cases hn : notifyOne n s w with
      | none => simp [hn] at hst
      | some s1 =>
        simp [hn] at hst; subst hst
        obtain ⟨w1, w2, w3, w4, w5, -⟩ := notify_wakes n hn0 s s1 hco w hn
        have ht0 : (0:Nat) = t ∨ (0:Nat) ≠ t := by omega
        refine ⟨fun h0 => ?_, fun h0 => ?_⟩
        · rcases ht0 with rfl | ht0
          · simp at h0
          · simp only [upd_other _ _ _ _ ht0] at h0; exact absurd h0 w1
        · rcases ht0 with rfl | ht0
          · simp at h0
          · simp only [upd_other _ _ _ _ ht0] at h0
            simp only [w3, w4]
            by_cases hbl : s.pc 0 = .blocked
            · unfold notifyOne at hn
              split at hn
              · split at hn
                · rename_i t' hc'
                  cases hn
                  have : t' = 0 := cons0 t' (by rw [hc'.2]; simp) (by rw [hc'.2]; simp)
                  subst this; simp at h0
                · cases hn
              · split at hn
                · cases hn; exact hp h0
                · cases hn
            · rw [w2 hbl] at h0; exact hp h0
    · cases hst
  | beginTry t =>
    simp only [step] at hst; split at hst
    · rename_i hc
      cases hst
      have ht : t = 0 := by omega
      subst ht
      exact ⟨fun h0 => by simp at h0, fun h0 => by simp at h0⟩
    · cases hst
  | finishTry t =>
    simp only [step] at hst; split at hst
    · rename_i a b hpc
      have ht := cons0 t (by rw [hpc]; simp) (by rw [hpc]; simp)
      subst ht
      split at hst
      · cases hst; exact ⟨fun h0 => by simp at h0, fun h0 => by simp at h0⟩
      · cases hst
        refine ⟨fun h0 => ?_, fun h0 => ?_⟩ <;> · rw [popPc] at h0; simp at h0
    · cases hst
  | beginWait t =>
    simp only [step] at hst; split at hst
    · rename_i hc
      cases hst
      have ht : t = 0 := by omega
      subst ht
      exact ⟨fun h0 => by simp at h0, fun h0 => by simp at h0⟩
    · cases hst
  | check t =>
    simp only [step] at hst; split at hst
    · rename_i hpc
      have ht := cons0 t (by rw [hpc]; simp) (by rw [hpc]; simp)
      subst ht
      split at hst
      · cases hst; exact ⟨fun h0 => by simp at h0, fun h0 => by simp at h0⟩
      · rename_i hc
        cases hst
        refine ⟨fun h0 => by simp at h0, fun _ => ?_⟩
        apply Classical.byContradiction; intro hne; exact hc (Or.inr hne)
    · cases hst
  | block t =>
    simp only [step] at hst; split at hst
    · rename_i hpc
      have ht := cons0 t (by rw [hpc]; simp) (by rw [hpc]; simp)
      subst ht
      cases hst
      exact ⟨fun _ => Or.inl (hp hpc), fun h0 => by simp at h0⟩
    · cases hst
  | spurious t =>
    simp only [step] at hst; split at hst
    · rename_i hpc
      have ht := cons0 t (by rw [hpc]; simp) (by rw [hpc]; simp)
      subst ht
      cases hst; exact ⟨fun h0 => by simp at h0, fun h0 => by simp at h0⟩
    · cases hst
  | reacquire t =>
    simp only [step] at hst; split at hst
    · rename_i hpc
      have ht := cons0 t (by rw [hpc.1]; simp) (by rw [hpc.1]; simp)
      subst ht
      cases hst; exact ⟨fun h0 => by simp at h0, fun h0 => by simp at h0⟩
    · cases hst
  | take t =>
    simp only [step] at hst; split at hst
    · rename_i hpc
      have ht := cons0 t (by rw [hpc]; simp) (by rw [hpc]; simp)
      subst ht
      split at hst
      · cases hst
        refine ⟨fun h0 => ?_, fun h0 => ?_⟩ <;> · rw [popPc] at h0; simp at h0
      · cases hst; exact ⟨fun h0 => by simp at h0, fun h0 => by simp at h0⟩
    · cases hst
  | setDone => simp only [step] at hst; cases hst; exact ⟨hb, hp⟩
  | disrupt t w =>
    simp only [step] at hst; split at hst
    · rename_i hc
      cases hn : notifyOne n s w with
      | none => simp [hn] at hst
      | some s1 =>
        simp [hn] at hst; subst hst
        obtain ⟨w1, w2, w3, w4, w5, _, _, _, w6⟩ := notify_wakes n hn0 s s1 hco w hn
        refine ⟨fun h0 => absurd h0 w1, fun h0 => ?_⟩
        simp only [w3, w4]
        by_cases hbl : s.pc 0 = .blocked
        · rw [w6 hbl] at h0; cases h0
        · rw [w2 hbl] at h0; exact hp h0
    · cases hst

/-- Shutdown invariant: once `done` was set and the queue disrupted, the consumer neither sleeps nor will go to sleep. -/
def Shut (s : St α) : Prop :=
  s.disrupted = true → s.done = true ∧ s.pc 0 ≠ .blocked ∧ s.pc 0 ≠ .pendingBlock

theorem shut_step (n : Nat) (hn0 : 0 < n) (s : St α) (a : Act α) (s' : St α)
    (h : Inv s ∧ ConsOnly 1 s ∧ Shut s) (hst : step n 1 s a = some s') : Inv s' ∧ ConsOnly 1 s' ∧ Shut s' := by
  obtain ⟨hinv, hco, hsh⟩ := h
  refine ⟨inv_step n 1 s a s' hinv hst, consOnly_step n 1 s a s' hco hst, ?_⟩
  have cons0 : ∀ t, s.pc t ≠ .idle → s.pc t ≠ .notifying → t = 0 := by
    intro t h1 h2; have := hco t h1 h2; omega
  have popPc : ∀ t, (popHead s t).pc = upd s.pc t .idle := by
    intro t; unfold popHead; split <;> rfl
  have popD : ∀ t, (popHead s t).done = s.done := by
    intro t; unfold popHead; split <;> rfl
  have popDis : ∀ t, (popHead s t).disrupted = s.disrupted := by
    intro t; unfold popHead; split <;> rfl
  have key : ∀ t p, p ≠ .blocked → p ≠ .pendingBlock → s.disrupted = true →
      s.done = true ∧ upd s.pc t p 0 ≠ .blocked ∧ upd s.pc t p 0 ≠ .pendingBlock := by
    intro t p h1 h2 hd
    have h3 := hsh hd
    refine ⟨h3.1, ?_⟩
    by_cases ht : 0 = t
    · subst ht; simpa using ⟨h1, h2⟩
    · simpa [upd, ht] using h3.2
  cases a with
  | push t v =>
    simp only [step] at hst; split at hst
    · cases hst; exact key t _ (by simp) (by simp)
    · cases hst
  | notify t w =>
    simp only [step] at hst; split at hst
    · rename_i hc
      cases hn : notifyOne n s w with
      | none => simp [hn] at hst
      | some s1 =>
        simp [hn] at hst; subst hst
        obtain ⟨w1, w2, w3, w4, w5, w6, w7, w8, w9⟩ := notify_wakes n hn0 s s1 hco w hn
        intro hd
        simp only [w8] at hd
        have h3 := hsh hd
        simp only [w7]
        refine ⟨h3.1, ?_⟩
        by_cases ht : 0 = t
        · subst ht; simp
        · simp only [upd_other _ _ _ _ ht]
          rw [w2 h3.2.1]; exact h3.2
    · cases hst
  | beginTry t =>
    simp only [step] at hst; split at hst
    · cases hst; exact key t _ (by simp) (by simp)
    · cases hst
  | finishTry t =>
    simp only [step] at hst; split at hst
    · split at hst
      · cases hst; exact key t _ (by simp) (by simp)
      · cases hst; intro hd; rw [popPc, popD]; rw [popDis] at hd; exact key t _ (by simp) (by simp) hd
    · cases hst
  | beginWait t =>
    simp only [step] at hst; split at hst
    · cases hst; exact key t _ (by simp) (by simp)
    · cases hst
  | check t =>
    simp only [step] at hst; split at hst
    · split at hst
      · cases hst; exact key t _ (by simp) (by simp)
      · rename_i hc
        cases hst
        intro hd
        exact absurd (Or.inl (hsh hd).1) hc
    · cases hst
  | block t =>
    simp only [step] at hst; split at hst
    · rename_i hpc
      have ht := cons0 t (by rw [hpc]; simp) (by rw [hpc]; simp)
      subst ht
      cases hst
      intro hd; exact absurd hpc (hsh hd).2.2
    · cases hst
  | spurious t =>
    simp only [step] at hst; split at hst
    · cases hst; exact key t _ (by simp) (by simp)
    · cases hst
  | reacquire t =>
    simp only [step] at hst; split at hst
    · cases hst; exact key t _ (by simp) (by simp)
    · cases hst
  | take t =>
    simp only [step] at hst; split at hst
    · split at hst
      · cases hst; intro hd; rw [popPc, popD]; rw [popDis] at hd; exact key t _ (by simp) (by simp) hd
      · cases hst; exact key t _ (by simp) (by simp)
    · cases hst
  | setDone =>
    simp only [step] at hst; cases hst
    intro hd; exact ⟨rfl, (hsh hd).2⟩
  | disrupt t w =>
    simp only [step] at hst; split at hst
    · rename_i hc
      cases hn : notifyOne n s w with
      | none => simp [hn] at hst
      | some s1 =>
        simp [hn] at hst; subst hst
        obtain ⟨w1, w2, w3, w4, w5, w6, w7, w8, w9⟩ := notify_wakes n hn0 s s1 hco w hn
        intro hd
        simp only [w7, w8] at hd ⊢
        have hnp : s.pc 0 ≠ .pendingBlock := by
          intro e
          have := hinv.locked 0 (Or.inr (Or.inr (Or.inl e)))
          rw [hc.2.2] at this; cases this
        have hdone : s.done = true := by
          cases hdis : s.disrupted with
          | true => exact (hsh hdis).1
          | false => simpa [hdis] using hd
        refine ⟨hdone, w1, ?_⟩
        by_cases hbl : s.pc 0 = .blocked
        · rw [w9 hbl]; simp
        · rw [w2 hbl]; exact hnp
    · cases hst

end Mcut.Queue
