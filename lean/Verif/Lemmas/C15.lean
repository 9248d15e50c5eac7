import Verif.Model.Queue
/-! Helper lemmas for the property file of the same name. -/
namespace Mcut.Queue
variable {α : Type}

structure Inv (s : St α) : Prop where
  tailEq : s.tail = s.pushed.length
  allocEq : s.alloc = s.tail + 1
  headEq : s.head = s.popped.length
  le : s.popped.length ≤ s.pushed.length
  pre : s.popped.map Prod.snd = s.pushed.take s.popped.length
  nodes : ∀ i, i < s.tail → (s.heap i).data = s.pushed[i]? ∧ (s.heap i).next = some (i + 1)
  noUb : s.ub = false
  locked : ∀ t, (∃ a b, s.pc t = .popping a b) ∨ s.pc t = .checking ∨ s.pc t = .pendingBlock ∨ s.pc t = .taking →
    s.headLock = some t
  snap : ∀ t a b, s.pc t = .popping a b → s.head ≤ a ∧ a ≤ s.tail ∧ (b = true ↔ s.head = a)
  take : ∀ t, s.pc t = .taking → s.done = true ∨ s.head ≠ s.tail

theorem inv_init : Inv (init : St α) := by
  refine ⟨rfl, rfl, rfl, Nat.le_refl _, rfl, ?_, rfl, ?_, ?_, ?_⟩
  · intro i hi; simp [init] at hi
  · intro t h; simp [init] at h
  · intro t a b h; simp [init] at h
  · intro t h; simp [init] at h

/-- `Inv` only depends on the threads' positions through the four "holding head_mutex" places. -/
theorem Inv.setPc {s : St α} (h : Inv s) (t : Nat) (p : PC)
    (h1 : ∀ a b, p ≠ .popping a b) (h2 : p ≠ .checking) (h3 : p ≠ .pendingBlock) (h4 : p ≠ .taking) :
    Inv { s with pc := upd s.pc t p } := by
  refine ⟨h.tailEq, h.allocEq, h.headEq, h.le, h.pre, h.nodes, h.noUb, ?_, ?_, ?_⟩
  · intro u hu
    by_cases hut : u = t
    · subst hut
      simp only [upd_same] at hu
      rcases hu with ⟨a, b, hu⟩ | hu | hu | hu
      · exact absurd hu (h1 a b)
      · exact absurd hu h2
      · exact absurd hu h3
      · exact absurd hu h4
    · exact h.locked u (by simpa [upd, hut] using hu)
  · intro u a b hu
    by_cases hut : u = t
    · subst hut; simp only [upd_same] at hu; exact absurd hu (h1 a b)
    · exact h.snap u a b (by simpa [upd, hut] using hu)
  · intro u hu
    by_cases hut : u = t
    · subst hut; simp only [upd_same] at hu; exact absurd hu h4
    · exact h.take u (by simpa [upd, hut] using hu)

/-- Releasing head_mutex by its holder `t`. -/
theorem Inv.unlock {s : St α} (h : Inv s) (t : Nat) (hl : s.headLock = some t) (p : PC)
    (h1 : ∀ a b, p ≠ .popping a b) (h2 : p ≠ .checking) (h3 : p ≠ .pendingBlock) (h4 : p ≠ .taking) :
    Inv { s with headLock := none, pc := upd s.pc t p } := by
  refine ⟨h.tailEq, h.allocEq, h.headEq, h.le, h.pre, h.nodes, h.noUb, ?_, ?_, ?_⟩
  · intro u hu
    by_cases hut : u = t
    · subst hut
      simp only [upd_same] at hu
      rcases hu with ⟨a, b, hu⟩ | hu | hu | hu
      · exact absurd hu (h1 a b)
      · exact absurd hu h2
      · exact absurd hu h3
      · exact absurd hu h4
    · have := h.locked u (by simpa [upd, hut] using hu)
      rw [hl] at this; injection this with e; exact absurd e.symm hut
  · intro u a b hu
    by_cases hut : u = t
    · subst hut; simp only [upd_same] at hu; exact absurd hu (h1 a b)
    · exact h.snap u a b (by simpa [upd, hut] using hu)
  · intro u hu
    by_cases hut : u = t
    · subst hut; simp only [upd_same] at hu; exact absurd hu h4
    · exact h.take u (by simpa [upd, hut] using hu)

theorem popHead_spec {s : St α} (h : Inv s) (t : Nat) (hlt : s.head < s.tail) :
    ∃ v, s.pushed[s.head]? = some v ∧
      popHead s t = { s with
        headLock := none, pc := upd s.pc t .idle, outcome := upd s.outcome t (some true)
        head := s.head + 1, popped := s.popped ++ [(t, v)] } := by
  obtain ⟨h1, h2⟩ := h.nodes s.head hlt
  have hl : s.head < s.pushed.length := by rw [← h.tailEq]; exact hlt
  refine ⟨s.pushed[s.head], by simp [hl], ?_⟩
  unfold popHead
  rw [List.getElem?_eq_getElem hl] at h1
  rw [h1, h2]

theorem inv_popHead {s : St α} (h : Inv s) (t : Nat) (hl : s.headLock = some t) (hlt : s.head < s.tail) :
    Inv (popHead s t) := by
  obtain ⟨v, hv, he⟩ := popHead_spec h t hlt
  rw [he]
  have hu := Inv.unlock h t hl .idle (by simp) (by simp) (by simp) (by simp)
  have hlt' : s.popped.length < s.pushed.length := by rw [← h.headEq, ← h.tailEq]; exact hlt
  -- nobody else holds the lock, so no other thread is in a section depending on `head`
  have hno : ∀ u, u ≠ t → (∀ a b, s.pc u ≠ .popping a b) ∧ s.pc u ≠ .taking := by
    intro u hut
    constructor
    · intro a b hp
      have := h.locked u (Or.inl ⟨a, b, hp⟩); rw [hl] at this; injection this with e; exact hut e.symm
    · intro hp
      have := h.locked u (Or.inr (Or.inr (Or.inr hp))); rw [hl] at this; injection this with e; exact hut e.symm
  refine ⟨h.tailEq, h.allocEq, ?_, ?_, ?_, h.nodes, h.noUb, hu.locked, ?_, ?_⟩
  · simp [h.headEq]
  · simp; omega
  · simp only [List.map_append, List.map_cons, List.map_nil, List.length_append, List.length_cons, List.length_nil]
    rw [List.take_add_one, h.pre]
    congr 1
    rw [← h.headEq, hv]; rfl
  · intro u a b hp
    by_cases hut : u = t
    · subst hut; simp at hp
    · simp only [upd_other _ _ _ _ hut] at hp; exact absurd hp ((hno u hut).1 a b)
  · intro u hp
    by_cases hut : u = t
    · subst hut; simp at hp
    · simp only [upd_other _ _ _ _ hut] at hp; exact absurd hp (hno u hut).2

theorem inv_outcome {s : St α} (h : Inv s) (f : Nat → Option Bool) : Inv { s with outcome := f } :=
  ⟨h.tailEq, h.allocEq, h.headEq, h.le, h.pre, h.nodes, h.noUb, h.locked, h.snap, h.take⟩

theorem inv_notify {s s' : St α} (h : Inv s) (n : Nat) (w : Option Nat) (hs : notifyOne n s w = some s') : Inv s' := by
  unfold notifyOne at hs
  split at hs
  · split at hs
    · cases hs; exact h.setPc _ _ (by simp) (by simp) (by simp) (by simp)
    · cases hs
  · split at hs
    · cases hs; exact h
    · cases hs

/-- Taking head_mutex. -/
theorem Inv.lock {s : St α} (h : Inv s) (t : Nat) (hl : s.headLock = none) (p : PC) (hp4 : p ≠ .taking)
    (hp : ∀ a b, p = .popping a b → s.head ≤ a ∧ a ≤ s.tail ∧ (b = true ↔ s.head = a)) :
    Inv { s with headLock := some t, pc := upd s.pc t p } := by
  refine ⟨h.tailEq, h.allocEq, h.headEq, h.le, h.pre, h.nodes, h.noUb, ?_, ?_, ?_⟩
  · intro u hu
    by_cases hut : u = t
    · subst hut; rfl
    · have := h.locked u (by simpa [upd, hut] using hu)
      rw [hl] at this; cases this
  · intro u a b hu
    by_cases hut : u = t
    · subst hut; simp only [upd_same] at hu; exact hp a b hu
    · exact h.snap u a b (by simpa [upd, hut] using hu)
  · intro u hu
    by_cases hut : u = t
    · subst hut; simp only [upd_same] at hu; exact absurd hu hp4
    · exact h.take u (by simpa [upd, hut] using hu)

theorem inv_push {s : St α} (h : Inv s) (t : Nat) (v : α) :
    Inv { s with
        heap := upd (upd s.heap s.alloc ⟨none, none⟩) s.tail ⟨some v, some s.alloc⟩
        tail := s.alloc, alloc := s.alloc + 1, pc := upd s.pc t .notifying, pushed := s.pushed ++ [v] } := by
  have hsp := h.setPc t .notifying (by simp) (by simp) (by simp) (by simp)
  have ht := h.tailEq
  have ha := h.allocEq
  have hle := h.le
  have hhd := h.headEq
  refine ⟨by simp; omega, rfl, h.headEq, by simp; omega, ?_, ?_, h.noUb, hsp.locked, ?_, ?_⟩
  · simp only
    rw [List.take_append_of_le_length h.le]; exact h.pre
  · intro i hi
    simp only at hi ⊢
    by_cases hit : i = s.tail
    · subst hit
      simp [ht, ha]
    · have hlt : i < s.tail := by omega
      rw [upd_other _ _ _ _ hit, upd_other _ _ _ _ (by omega)]
      obtain ⟨h1, h2⟩ := h.nodes i hlt
      refine ⟨?_, h2⟩
      rw [h1, List.getElem?_append_left (by omega)]
  · intro u a b hp
    have := hsp.snap u a b hp
    exact ⟨this.1, by have := this.2.1; simp only at this ⊢; omega, this.2.2⟩
  · intro u hp
    refine Or.inr ?_
    simp only
    omega

theorem inv_step (n nc : Nat) (s : St α) (a : Act α) (s' : St α) (h : Inv s) (hs : step n nc s a = some s') : Inv s' := by
  cases a with
  | push t v =>
    simp only [step] at hs
    split at hs
    · cases hs; exact inv_push h t v
    · cases hs
  | notify t w =>
    simp only [step] at hs
    split at hs
    · cases hn : notifyOne n s w with
      | none => simp [hn] at hs
      | some s1 =>
        simp [hn] at hs; subst hs
        exact (inv_notify h n w hn).setPc _ _ (by simp) (by simp) (by simp) (by simp)
    · cases hs
  | beginTry t =>
    simp only [step] at hs
    split at hs
    · rename_i hc
      cases hs
      refine h.lock t hc.2.2.2 _ (by simp) ?_
      intro a b hab
      injection hab with h1 h2
      subst h1 h2
      have := h.le
      have h1 := h.headEq
      have h2 := h.tailEq
      simp; omega
    · cases hs
  | finishTry t =>
    simp only [step] at hs
    split at hs
    · rename_i snap b hpc
      have hl := h.locked t (Or.inl ⟨snap, b, hpc⟩)
      split at hs
      · cases hs
        exact inv_outcome (h.unlock t hl .idle (by simp) (by simp) (by simp) (by simp)) _
      · rename_i hne
        cases hs
        have := h.snap t snap b hpc
        exact inv_popHead h t hl (by omega)
    · cases hs
  | beginWait t =>
    simp only [step] at hs
    split at hs
    · rename_i hc
      cases hs
      exact h.lock t hc.2.2.2 _ (by simp) (by simp)
    · cases hs
  | check t =>
    simp only [step] at hs
    split at hs
    · rename_i hpc
      have hl := h.locked t (Or.inr (Or.inl hpc))
      split at hs
      · rename_i hc
        cases hs
        refine ⟨h.tailEq, h.allocEq, h.headEq, h.le, h.pre, h.nodes, h.noUb, ?_, ?_, ?_⟩
        · intro u hu
          by_cases hut : u = t
          · subst hut; exact hl
          · exact h.locked u (by simpa [upd, hut] using hu)
        · intro u a b hu
          by_cases hut : u = t
          · subst hut; simp at hu
          · exact h.snap u a b (by simpa [upd, hut] using hu)
        · intro u hu
          exact hc
      · cases hs
        refine ⟨h.tailEq, h.allocEq, h.headEq, h.le, h.pre, h.nodes, h.noUb, ?_, ?_, ?_⟩
        · intro u hu
          by_cases hut : u = t
          · subst hut; exact hl
          · exact h.locked u (by simpa [upd, hut] using hu)
        · intro u a b hu
          by_cases hut : u = t
          · subst hut; simp at hu
          · exact h.snap u a b (by simpa [upd, hut] using hu)
        · intro u hu
          by_cases hut : u = t
          · subst hut; simp at hu
          · exact h.take u (by simpa [upd, hut] using hu)
    · cases hs
  | block t =>
    simp only [step] at hs
    split at hs
    · rename_i hpc
      cases hs
      exact h.unlock t (h.locked t (Or.inr (Or.inr (Or.inl hpc)))) _ (by simp) (by simp) (by simp) (by simp)
    · cases hs
  | spurious t =>
    simp only [step] at hs
    split at hs
    · cases hs; exact h.setPc _ _ (by simp) (by simp) (by simp) (by simp)
    · cases hs
  | reacquire t =>
    simp only [step] at hs
    split at hs
    · rename_i hc
      cases hs
      exact h.lock t hc.2 _ (by simp) (by simp)
    · cases hs
  | take t =>
    simp only [step] at hs
    split at hs
    · rename_i hpc
      have hl := h.locked t (Or.inr (Or.inr (Or.inr hpc)))
      split at hs
      · rename_i hd
        cases hs
        have h1 := h.take t hpc
        rw [hd] at h1
        have h2 : s.head ≠ s.tail := by rcases h1 with h1 | h1; cases h1; exact h1
        have h3 := h.le; have h4 := h.headEq; have h5 := h.tailEq
        exact inv_popHead h t hl (by omega)
      · cases hs
        exact inv_outcome (h.unlock t hl .idle (by simp) (by simp) (by simp) (by simp)) _
    · cases hs
  | setDone =>
    simp only [step] at hs
    cases hs
    exact ⟨h.tailEq, h.allocEq, h.headEq, h.le, h.pre, h.nodes, h.noUb, h.locked, h.snap, fun _ _ => Or.inl rfl⟩
  | disrupt t w =>
    simp only [step] at hs
    split at hs
    · cases hn : notifyOne n s w with
      | none => simp [hn] at hs
      | some s1 =>
        simp [hn] at hs; subst hs
        have h1 := inv_notify h n w hn
        exact ⟨h1.tailEq, h1.allocEq, h1.headEq, h1.le, h1.pre, h1.nodes, h1.noUb, h1.locked, h1.snap, h1.take⟩
    · cases hs

theorem reach_inv (n nc : Nat) (s : St α) (hr : Reach (step n nc) init s) : Inv s :=
  Reach.inv (inv_step n nc) inv_init hr

theorem contents_eq {s : St α} (h : Inv s) (fuel : Nat) (a : Nat) (ha : a ≤ s.tail) (hf : s.tail - a ≤ fuel) :
    contents s fuel a = s.pushed.drop a := by
  induction fuel generalizing a with
  | zero =>
    have : a = s.tail := by omega
    subst this
    simp [contents, h.tailEq]
  | succ fuel ih =>
    unfold contents
    by_cases hat : a = s.tail
    · subst hat; simp [h.tailEq]
    · have hlt : a < s.tail := by omega
      obtain ⟨h1, h2⟩ := h.nodes a hlt
      have hl : a < s.pushed.length := by rw [← h.tailEq]; exact hlt
      rw [List.getElem?_eq_getElem hl] at h1
      rw [if_neg hat, h1, h2]
      simp only
      rw [ih (a + 1) (by omega) (by omega)]
      exact List.getElem_cons_drop hl

end Mcut.Queue
