import Verif.Spec.C56

/-! Helper lemmas for `Props/C56.lean`. -/
namespace Mcut.Pool

def Active (p : Ph) : Prop := p ≠ .idle ∧ p ≠ .done

structure Inv (M W : Nat) (s : St) : Prop where
  q : ∀ w t, t ∈ s.queue w → t.2 = w ∧ t.1 < M ∧ ∃ j js, (s.mgr t.1).todo = j :: js ∧ w + 1 < j.blocks ∧ w < (s.mgr t.1).submitted ∧ (s.mgr t.1).ph w = .idle
  qn : ∀ w, (s.queue w).Nodup
  r : ∀ w t, s.running w = some t → t.2 = w ∧ t.1 < M ∧ ∃ j js, (s.mgr t.1).todo = j :: js ∧ w + 1 < j.blocks ∧ w < (s.mgr t.1).submitted ∧ Active ((s.mgr t.1).ph w)
  i : ∀ m j js, m < M → (s.mgr m).todo = j :: js → ∀ i, i + 1 < j.blocks →
    ((s.mgr m).ph i = .idle → i < (s.mgr m).submitted → (m, i) ∈ s.queue i) ∧ (Active ((s.mgr m).ph i) → s.running i = some (m, i)) ∧
    ((s.mgr m).submitted ≤ i → (s.mgr m).ph i = .idle)
  b : ∀ m j js, (s.mgr m).todo = j :: js → (s.mgr m).submitted + 1 ≤ j.blocks ∧ j.blocks ≤ W + 1 ∧
    ((s.mgr m).ph (j.blocks - 1) ≠ .idle → (s.mgr m).submitted + 1 = j.blocks) ∧
    (∀ i r, (s.mgr m).ph i = .work r → r ≤ j.rounds) ∧ (∀ i r, (s.mgr m).ph i = .at r → r < j.rounds)
  e : ∀ m, ∀ j ∈ (s.mgr m).todo, 1 ≤ j.blocks ∧ j.blocks ≤ W + 1

theorem inv_init {M W : Nat} {prog : Nat → List Job} (h : JobsOk W prog) : Inv M W (init prog) := by
  refine ⟨by simp [init], by simp [init], by simp [init], ?_, ?_, h⟩
  · intro m j js hm ht i hi
    simp [init, Active]
  · intro m j js ht
    have := h m j (by simp [init] at ht; simp [ht])
    simp [init]; omega

/-- Changing the progress of one active block of the current job to another active one. -/
theorem inv_setPh {M W : Nat} {s : St} (h : Inv M W s) {m i : Nat} {j : Job} {js : List Job} {p : Ph} (hj : (s.mgr m).todo = j :: js)
    (hi : i < j.blocks) (hp : Active p) (hcur : Active ((s.mgr m).ph i))
    (hw : ∀ r, p = .work r → r ≤ j.rounds) (ha : ∀ r, p = .at r → r < j.rounds) : Inv M W (s.setPh m i p) := by
  have hph : ∀ m' i', ((s.setPh m i p).mgr m').ph i' = if m' = m ∧ i' = i then p else (s.mgr m').ph i' := by
    intro m' i'
    by_cases e : m' = m
    · subst e
      by_cases e2 : i' = i
      · subst e2; simp [St.setPh]
      · simp [St.setPh, upd, e2]
    · simp [St.setPh, upd, e]
  have htodo : ∀ m', ((s.setPh m i p).mgr m').todo = (s.mgr m').todo := by
    intro m'; by_cases e : m' = m
    · subst e; simp [St.setPh]
    · simp [St.setPh, upd, e]
  have hsub : ∀ m', ((s.setPh m i p).mgr m').submitted = (s.mgr m').submitted := by
    intro m'; by_cases e : m' = m
    · subst e; simp [St.setPh]
    · simp [St.setPh, upd, e]
  refine ⟨?_, h.qn, ?_, ?_, ?_, ?_⟩
  · intro w t ht
    obtain ⟨h1, h2, j', js', h3, h4, h5, h6⟩ := h.q w t ht
    refine ⟨h1, h2, j', js', by rw [htodo]; exact h3, h4, by rw [hsub]; exact h5, ?_⟩
    rw [hph, if_neg]; exact h6
    rintro ⟨e1, e2⟩; subst e1; subst e2; exact hcur.1 h6
  · intro w t ht
    obtain ⟨h1, h2, j', js', h3, h4, h5, h6⟩ := h.r w t ht
    refine ⟨h1, h2, j', js', by rw [htodo]; exact h3, h4, by rw [hsub]; exact h5, ?_⟩
    rw [hph]; split
    · exact hp
    · exact h6
  · intro m' j' js' hm ht k hk
    rw [htodo] at ht
    obtain ⟨h1, h2, h3⟩ := h.i m' j' js' hm ht k hk
    rw [hph, hsub]
    refine ⟨fun a b => ?_, fun a => ?_, fun a => ?_⟩
    · split at a
      · exact absurd a hp.1
      · exact h1 a b
    · split at a
      · rename_i e; obtain ⟨rfl, rfl⟩ := e; exact h2 hcur
      · exact h2 a
    · split
      · rename_i e; obtain ⟨rfl, rfl⟩ := e; exact absurd (h3 a) hcur.1
      · exact h3 a
  · intro m' j' js' ht
    rw [htodo] at ht
    obtain ⟨h1, h2, h3, h4, h5⟩ := h.b m' j' js' ht
    rw [hsub]
    refine ⟨h1, h2, ?_, ?_, ?_⟩
    · intro a; rw [hph] at a; split at a
      · rename_i e; obtain ⟨rfl, rfl⟩ := e; exact h3 hcur.1
      · exact h3 a
    · intro k r a; rw [hph] at a; split at a
      · rename_i e; obtain ⟨rfl, rfl⟩ := e
        rw [hj] at ht; injection ht with e1 e2; subst e1; exact hw r a
      · exact h4 k r a
    · intro k r a; rw [hph] at a; split at a
      · rename_i e; obtain ⟨rfl, rfl⟩ := e
        rw [hj] at ht; injection ht with e1 e2; subst e1; exact ha r a
      · exact h5 k r a
  · intro m' j' hj'; rw [htodo] at hj'; exact h.e m' j' hj'

theorem inv_step {M W : Nat} {s s' : St} {a : Act} (h : Inv M W s) (hs : step M W s a = some s') : Inv M W s' := by
  cases a with
  | submit m =>
    simp only [step] at hs
    split at hs
    · simp at hs
    rename_i j js hj
    split at hs
    · rename_i hc
      injection hs with hs; subst hs
      have hidle := (h.i m j js hc.1 hj _ hc.2).2.2 (Nat.le_refl _)
      obtain ⟨hb1, hb2, hb3, hb4, hb5⟩ := h.b m j js hj
      refine ⟨?_, ?_, ?_, ?_, ?_, ?_⟩
      · intro w t ht
        by_cases hw : w = (s.mgr m).submitted
        · subst hw
          simp only [upd_same, List.mem_append, List.mem_singleton] at ht
          rcases ht with ht | rfl
          · obtain ⟨h1, h2, j', js', h3, h4, h5, h6⟩ := h.q _ t ht
            refine ⟨h1, h2, ?_⟩
            by_cases e : t.1 = m
            · rw [e] at h5; omega
            · simp only [upd_other _ _ _ _ e]; exact ⟨j', js', h3, h4, h5, h6⟩
          · exact ⟨rfl, hc.1, by simp only [upd_same]; exact ⟨j, js, hj, hc.2, by omega, hidle⟩⟩
        · simp only [upd_other _ _ _ _ hw] at ht
          obtain ⟨h1, h2, j', js', h3, h4, h5, h6⟩ := h.q _ t ht
          refine ⟨h1, h2, ?_⟩
          by_cases e : t.1 = m
          · simp only [e, upd_same]; rw [e] at h3 h5 h6; exact ⟨j', js', h3, h4, by omega, h6⟩
          · simp only [upd_other _ _ _ _ e]; exact ⟨j', js', h3, h4, h5, h6⟩
      · intro w
        by_cases hw : w = (s.mgr m).submitted
        · subst hw; simp only [upd_same]
          rw [List.nodup_append]
          refine ⟨h.qn _, by simp, ?_⟩
          intro x hx y hy; simp at hy; subst hy; intro e; subst e
          obtain ⟨h1, h2, j', js', h3, h4, h5, h6⟩ := h.q _ _ hx
          exact absurd h5 (by simp)
        · simp only [upd_other _ _ _ _ hw]; exact h.qn w
      · intro w t ht
        obtain ⟨h1, h2, j', js', h3, h4, h5, h6⟩ := h.r w t ht
        refine ⟨h1, h2, ?_⟩
        by_cases e : t.1 = m
        · simp only [e, upd_same]; rw [e] at h3 h5 h6; exact ⟨j', js', h3, h4, by omega, h6⟩
        · simp only [upd_other _ _ _ _ e]; exact ⟨j', js', h3, h4, h5, h6⟩
      · intro m' j' js' hm ht k hk
        by_cases e : m' = m
        · subst e
          simp only [upd_same] at ht ⊢
          obtain ⟨h1, h2, h3⟩ := h.i m' j' js' hm ht k hk
          refine ⟨fun a b => ?_, h2, fun a => h3 (by omega)⟩
          by_cases ek : k = (s.mgr m').submitted
          · subst ek; simp
          · rw [upd_other _ _ _ _ ek]; exact h1 a (by omega)
        · simp only [upd_other _ _ _ _ e] at ht ⊢
          obtain ⟨h1, h2, h3⟩ := h.i m' j' js' hm ht k hk
          refine ⟨fun a b => ?_, h2, h3⟩
          by_cases ek : k = (s.mgr m).submitted
          · subst ek; simp only [upd_same, List.mem_append]; exact Or.inl (h1 a b)
          · rw [upd_other _ _ _ _ ek]; exact h1 a b
      · intro m' j' js' ht
        by_cases e : m' = m
        · subst e
          simp only [upd_same] at ht ⊢
          rw [hj] at ht; injection ht with e1 e2; subst e1
          exact ⟨by omega, hb2, fun a => by have := hb3 a; omega, hb4, hb5⟩
        · simp only [upd_other _ _ _ _ e] at ht ⊢; exact h.b m' j' js' ht
      · intro m' j' hj'
        by_cases e : m' = m
        · subst e; simp only [upd_same] at hj'; exact h.e m' j' hj'
        · simp only [upd_other _ _ _ _ e] at hj'; exact h.e m' j' hj'
    · simp at hs
  | begin m =>
    simp only [step] at hs
    split at hs
    · simp at hs
    rename_i j js hj
    split at hs
    · rename_i hc
      injection hs with hs; subst hs
      obtain ⟨hb1, hb2, hb3, hb4, hb5⟩ := h.b m j js hj
      have hph : ∀ m' i', ((s.setPh m (j.blocks - 1) (.work 0)).mgr m').ph i' = if m' = m ∧ i' = j.blocks - 1 then .work 0 else (s.mgr m').ph i' := by
        intro m' i'
        by_cases e : m' = m
        · subst e
          by_cases e2 : i' = j.blocks - 1
          · subst e2; simp [St.setPh]
          · simp [St.setPh, upd, e2]
        · simp [St.setPh, upd, e]
      have htodo : ∀ m', ((s.setPh m (j.blocks - 1) (.work 0)).mgr m').todo = (s.mgr m').todo := by
        intro m'; by_cases e : m' = m
        · subst e; simp [St.setPh]
        · simp [St.setPh, upd, e]
      have hsub : ∀ m', ((s.setPh m (j.blocks - 1) (.work 0)).mgr m').submitted = (s.mgr m').submitted := by
        intro m'; by_cases e : m' = m
        · subst e; simp [St.setPh]
        · simp [St.setPh, upd, e]
      have hne : ∀ m' j' js' k, (s.mgr m').todo = j' :: js' → k + 1 < j'.blocks → ¬ (m' = m ∧ k = j.blocks - 1) := by
        rintro m' j' js' k h1 h2 ⟨rfl, h4⟩
        rw [hj] at h1; injection h1 with e1 e2; subst e1; omega
      refine ⟨?_, h.qn, ?_, ?_, ?_, ?_⟩
      · intro w t ht
        obtain ⟨h1, h2, j', js', h3, h4, h5, h6⟩ := h.q w t ht
        refine ⟨h1, h2, j', js', by rw [htodo]; exact h3, h4, by rw [hsub]; exact h5, ?_⟩
        rw [hph, if_neg (hne _ _ _ _ h3 h4)]; exact h6
      · intro w t ht
        obtain ⟨h1, h2, j', js', h3, h4, h5, h6⟩ := h.r w t ht
        refine ⟨h1, h2, j', js', by rw [htodo]; exact h3, h4, by rw [hsub]; exact h5, ?_⟩
        rw [hph, if_neg (hne _ _ _ _ h3 h4)]; exact h6
      · intro m' j' js' hm ht k hk
        rw [htodo] at ht
        rw [hph, hsub, if_neg (hne _ _ _ _ ht hk)]
        exact h.i m' j' js' hm ht k hk
      · intro m' j' js' ht
        rw [htodo] at ht
        obtain ⟨h1, h2, h3, h4, h5⟩ := h.b m' j' js' ht
        rw [hsub]
        refine ⟨h1, h2, ?_, ?_, ?_⟩
        · intro a
          by_cases e : m' = m
          · subst e; rw [hj] at ht; injection ht with e1 e2; subst e1; exact hc.2.1
          · rw [hph, if_neg (by simp [e])] at a; exact h3 a
        · intro k r a; rw [hph] at a; split at a
          · injection a with a; omega
          · exact h4 k r a
        · intro k r a; rw [hph] at a; split at a
          · simp at a
          · exact h5 k r a
      · intro m' j' hj'; rw [htodo] at hj'; exact h.e m' j' hj'
    · simp at hs
  | pop w =>
    simp only [step] at hs
    split at hs
    · rename_i t q hq hr
      split at hs
      · rename_i hw
        injection hs with hs; subst hs
        obtain ⟨m, i⟩ := t
        obtain ⟨k1, k2, j, js, k3, k4, k5, k6⟩ := h.q w (m, i) (by rw [hq]; simp)
        simp only at k1; subst k1
        simp only at k2 k3 k5 k6
        have hnd := h.qn i; rw [hq] at hnd
        have hph : ∀ m' i', (upd s.mgr m { s.mgr m with ph := upd (s.mgr m).ph i (.work 0) } m').ph i' = if m' = m ∧ i' = i then .work 0 else (s.mgr m').ph i' := by
          intro m' i'
          by_cases e : m' = m
          · subst e
            by_cases e2 : i' = i
            · subst e2; simp
            · simp [upd, e2]
          · simp [upd, e]
        have htodo : ∀ m', (upd s.mgr m { s.mgr m with ph := upd (s.mgr m).ph i (.work 0) } m').todo = (s.mgr m').todo := by
          intro m'; by_cases e : m' = m
          · subst e; simp
          · simp [upd, e]
        have hsub : ∀ m', (upd s.mgr m { s.mgr m with ph := upd (s.mgr m).ph i (.work 0) } m').submitted = (s.mgr m').submitted := by
          intro m'; by_cases e : m' = m
          · subst e; simp
          · simp [upd, e]
        simp only [St.setPh]
        refine ⟨?_, ?_, ?_, ?_, ?_, ?_⟩
        · intro w t ht
          simp only at ht ⊢
          have ht' : t ∈ s.queue w ∧ ¬ (t.1 = m ∧ w = i) := by
            by_cases e : w = i
            · subst e; rw [upd_same] at ht
              refine ⟨by rw [hq]; exact List.mem_cons_of_mem _ ht, ?_⟩
              rintro ⟨e1, -⟩
              have h2 := (h.q w t (by rw [hq]; exact List.mem_cons_of_mem _ ht)).1
              have : t = (m, w) := by cases t; simp_all
              subst this; exact (List.nodup_cons.1 hnd).1 ht
            · rw [upd_other _ _ _ _ e] at ht; exact ⟨ht, by simp [e]⟩
          obtain ⟨h1, h2, j', js', h3, h4, h5, h6⟩ := h.q w t ht'.1
          refine ⟨h1, h2, j', js', by rw [htodo]; exact h3, h4, by rw [hsub]; exact h5, ?_⟩
          rw [hph, if_neg ht'.2]; exact h6
        · intro w
          by_cases e : w = i
          · subst e; simp only [upd_same]; exact (List.nodup_cons.1 hnd).2
          · simp only [upd_other _ _ _ _ e]; exact h.qn w
        · intro w t ht
          simp only at ht ⊢
          by_cases e : w = i
          · subst e; rw [upd_same] at ht; injection ht with ht; subst ht
            refine ⟨rfl, k2, j, js, by rw [htodo]; exact k3, k4, by rw [hsub]; exact k5, ?_⟩
            rw [hph, if_pos ⟨rfl, rfl⟩]; simp [Active]
          · rw [upd_other _ _ _ _ e] at ht
            obtain ⟨h1, h2, j', js', h3, h4, h5, h6⟩ := h.r w t ht
            refine ⟨h1, h2, j', js', by rw [htodo]; exact h3, h4, by rw [hsub]; exact h5, ?_⟩
            rw [hph, if_neg (by simp [e])]; exact h6
        · intro m' j' js' hm ht k hk
          simp only at ht ⊢
          rw [htodo] at ht
          obtain ⟨h1, h2, h3⟩ := h.i m' j' js' hm ht k hk
          rw [hph, hsub]
          refine ⟨fun a b => ?_, fun a => ?_, fun a => ?_⟩
          · split at a
            · simp at a
            · rename_i hne
              by_cases e : k = i
              · subst e; rw [upd_same]
                have := h1 a b; rw [hq] at this
                rcases List.mem_cons.1 this with e | e
                · injection e with e1 e2; exact absurd ⟨e1, rfl⟩ hne
                · exact e
              · rw [upd_other _ _ _ _ e]; exact h1 a b
          · split at a
            · rename_i e; obtain ⟨rfl, rfl⟩ := e; simp
            · rename_i hne
              by_cases e : k = i
              · subst e; have := h2 a; rw [hr] at this; simp at this
              · rw [upd_other _ _ _ _ e]; exact h2 a
          · split
            · rename_i e; obtain ⟨rfl, rfl⟩ := e; omega
            · exact h3 a
        · intro m' j' js' ht
          simp only at ht ⊢
          rw [htodo] at ht
          obtain ⟨h1, h2, h3, h4, h5⟩ := h.b m' j' js' ht
          rw [hsub]
          refine ⟨h1, h2, ?_, ?_, ?_⟩
          · intro a; rw [hph] at a; split at a
            · rename_i e; obtain ⟨rfl, e⟩ := e
              rw [k3] at ht; injection ht with e1 e2; subst e1; omega
            · exact h3 a
          · intro k r a; rw [hph] at a; split at a
            · injection a with a; omega
            · exact h4 k r a
          · intro k r a; rw [hph] at a; split at a
            · simp at a
            · exact h5 k r a
        · intro m' j' hj'; simp only at hj'; rw [htodo] at hj'; exact h.e m' j' hj'
      · simp at hs
    · simp at hs
  | arrive m i =>
    simp only [step] at hs
    split at hs
    · rename_i j js r hj hp
      split at hs
      · rename_i hc
        injection hs with hs; subst hs
        refine inv_setPh h hj hc.2.1 (by simp [Active]) (by simp [Active, hp]) (by simp) ?_
        intro r' e; injection e with e; subst e; exact hc.2.2
      · simp at hs
    · simp at hs
  | pass m i =>
    simp only [step] at hs
    split at hs
    · rename_i j js r hj hp
      split at hs
      · rename_i hc
        injection hs with hs; subst hs
        refine inv_setPh h hj hc.2.1 (by simp [Active]) (by simp [Active, hp]) ?_ (by simp)
        intro r' e; injection e with e; subst e
        exact (h.b m j js hj).2.2.2.2 i r hp
      · simp at hs
    · simp at hs
  | finish m i =>
    simp only [step] at hs
    split at hs
    · rename_i j js r hj hp
      split at hs
      · rename_i hc
        injection hs with hs; subst hs
        have hact : Active ((s.mgr m).ph i) := by simp [Active, hp]
        have hph : ∀ m' i', (upd s.mgr m { s.mgr m with ph := upd (s.mgr m).ph i .done } m').ph i' = if m' = m ∧ i' = i then .done else (s.mgr m').ph i' := by
          intro m' i'
          by_cases e : m' = m
          · subst e
            by_cases e2 : i' = i
            · subst e2; simp
            · simp [upd, e2]
          · simp [upd, e]
        have htodo : ∀ m', (upd s.mgr m { s.mgr m with ph := upd (s.mgr m).ph i .done } m').todo = (s.mgr m').todo := by
          intro m'; by_cases e : m' = m
          · subst e; simp
          · simp [upd, e]
        have hsub : ∀ m', (upd s.mgr m { s.mgr m with ph := upd (s.mgr m).ph i .done } m').submitted = (s.mgr m').submitted := by
          intro m'; by_cases e : m' = m
          · subst e; simp
          · simp [upd, e]
        have hrun : ∀ w t, (if i + 1 < j.blocks then upd s.running i none else s.running) w = some t ↔ s.running w = some t ∧ ¬ (t.1 = m ∧ w = i) := by
          intro w t
          split
          · rename_i hlt
            have hri := (h.i m j js hc.1 hj i hlt).2.1 hact
            by_cases e : w = i
            · subst e; rw [upd_same]; constructor
              · simp
              · rintro ⟨a, b⟩; rw [hri] at a; injection a with a; subst a; simp at b
            · rw [upd_other _ _ _ _ e]; simp [e]
          · rename_i hlt
            constructor
            · intro a; refine ⟨a, ?_⟩
              rintro ⟨rfl, rfl⟩
              obtain ⟨h1, h2, j', js', h3, h4, h5, h6⟩ := h.r w t a
              rw [hj] at h3; injection h3 with e1 e2; subst e1; omega
            · exact fun a => a.1
        simp only [St.setPh]
        refine ⟨?_, h.qn, ?_, ?_, ?_, ?_⟩
        · intro w t ht
          obtain ⟨h1, h2, j', js', h3, h4, h5, h6⟩ := h.q w t ht
          refine ⟨h1, h2, j', js', by rw [htodo]; exact h3, h4, by rw [hsub]; exact h5, ?_⟩
          rw [hph, if_neg]; exact h6
          rintro ⟨e1, e2⟩; subst e1; subst e2; exact hact.1 h6
        · intro w t ht
          obtain ⟨ht, hne⟩ := (hrun w t).1 ht
          obtain ⟨h1, h2, j', js', h3, h4, h5, h6⟩ := h.r w t ht
          refine ⟨h1, h2, j', js', by rw [htodo]; exact h3, h4, by rw [hsub]; exact h5, ?_⟩
          rw [hph, if_neg hne]; exact h6
        · intro m' j' js' hm ht k hk
          simp only at ht ⊢
          rw [htodo] at ht
          obtain ⟨h1, h2, h3⟩ := h.i m' j' js' hm ht k hk
          rw [hph, hsub]
          refine ⟨fun a b => ?_, fun a => ?_, fun a => ?_⟩
          · split at a
            · simp at a
            · exact h1 a b
          · split at a
            · simp [Active] at a
            · rename_i hne; exact (hrun _ _).2 ⟨h2 a, hne⟩
          · split
            · rename_i e; obtain ⟨rfl, rfl⟩ := e; exact absurd (h3 a) hact.1
            · exact h3 a
        · intro m' j' js' ht
          simp only at ht ⊢
          rw [htodo] at ht
          obtain ⟨h1, h2, h3, h4, h5⟩ := h.b m' j' js' ht
          rw [hsub]
          refine ⟨h1, h2, ?_, ?_, ?_⟩
          · intro a; rw [hph] at a; split at a
            · rename_i e; obtain ⟨rfl, rfl⟩ := e; exact h3 hact.1
            · exact h3 a
          · intro k r a; rw [hph] at a; split at a
            · simp at a
            · exact h4 k r a
          · intro k r a; rw [hph] at a; split at a
            · simp at a
            · exact h5 k r a
        · intro m' j' hj'; simp only at hj'; rw [htodo] at hj'; exact h.e m' j' hj'
      · simp at hs
    · simp at hs
  | complete m =>
    simp only [step] at hs
    split at hs
    · simp at hs
    rename_i j js hj
    split at hs
    · rename_i hc
      injection hs with hs; subst hs
      refine ⟨?_, h.qn, ?_, ?_, ?_, ?_⟩
      · intro w t ht
        obtain ⟨h1, h2, j', js', h3, h4, h5, h6⟩ := h.q w t ht
        refine ⟨h1, h2, ?_⟩
        by_cases e : t.1 = m
        · rw [e] at h3 h6; rw [hj] at h3; injection h3 with e1 e2; subst e1
          rw [hc.2 w (by omega)] at h6; simp at h6
        · simp only [upd_other _ _ _ _ e]; exact ⟨j', js', h3, h4, h5, h6⟩
      · intro w t ht
        obtain ⟨h1, h2, j', js', h3, h4, h5, h6⟩ := h.r w t ht
        refine ⟨h1, h2, ?_⟩
        by_cases e : t.1 = m
        · rw [e] at h3 h6; rw [hj] at h3; injection h3 with e1 e2; subst e1
          rw [hc.2 w (by omega)] at h6; simp [Active] at h6
        · simp only [upd_other _ _ _ _ e]; exact ⟨j', js', h3, h4, h5, h6⟩
      · intro m' j' js' hm ht k hk
        by_cases e : m' = m
        · subst e; simp [Active]
        · simp only [upd_other _ _ _ _ e] at ht ⊢; exact h.i m' j' js' hm ht k hk
      · intro m' j' js' ht
        by_cases e : m' = m
        · subst e; simp only [upd_same] at ht ⊢
          have := h.e m' j' (by rw [hj, ht]; simp)
          simp; omega
        · simp only [upd_other _ _ _ _ e] at ht ⊢; exact h.b m' j' js' ht
      · intro m' j' hj'
        by_cases e : m' = m
        · subst e; simp only [upd_same] at hj'; exact h.e m' j' (by rw [hj]; simp [hj'])
        · simp only [upd_other _ _ _ _ e] at hj'; exact h.e m' j' hj'
    · simp at hs

theorem todo_mem {M W : Nat} {s s' : St} {a : Act} (hs : step M W s a = some s') (m : Nat) :
    ∀ j ∈ (s'.mgr m).todo, j ∈ (s.mgr m).todo := by
  have key : ∀ (m' : Nat) (g : Mgr) (f : Nat → Mgr), (∀ j ∈ g.todo, j ∈ (f m').todo) → ∀ j ∈ (upd f m' g m).todo, j ∈ (f m).todo := by
    intro m' g f hg j hj
    by_cases e : m = m'
    · subst e; rw [upd_same] at hj; exact hg j hj
    · rw [upd_other _ _ _ _ e] at hj; exact hj
  cases a <;> simp only [step] at hs <;> (repeat' split at hs) <;> first
    | (simp at hs; done)
    | (injection hs with hs; subst hs
       refine key _ _ _ ?_
       simp_all)

theorem exists_min {P : Nat → Prop} (h : ∃ n, P n) : ∃ n, P n ∧ ∀ k < n, ¬ P k := by
  obtain ⟨n, hn⟩ := h
  induction n using Nat.strongRecOn with
  | ind n ih =>
    by_cases hk : ∃ k < n, P k
    · obtain ⟨k, hk1, hk2⟩ := hk; exact ih k hk1 hk2
    · exact ⟨n, hn, fun k hk' hp => hk ⟨k, hk', hp⟩⟩

/-- Facts about a stuck state: everything is submitted, the managers' own blocks have begun, nobody computes before a
meeting, nobody could finish, idle blocks are queued behind a running one. -/
structure Jam (M : Nat) (s : St) : Prop where
  idle : ∀ m j js, m < M → (s.mgr m).todo = j :: js → ∀ i < j.blocks, (s.mgr m).ph i = .idle →
    ∃ m' j' js', m' < M ∧ (s.mgr m').todo = j' :: js' ∧ m' ≠ m ∧ i + 1 < j'.blocks ∧ Active ((s.mgr m').ph i)
  act : ∀ m j js, m < M → (s.mgr m).todo = j :: js → ∀ i < j.blocks, Active ((s.mgr m).ph i) →
    ((∃ r, (s.mgr m).ph i = .at r ∧ r < j.rounds ∧ ∃ k < j.blocks, ((s.mgr m).ph k).reached r = false) ∨
     (j.chain = true ∧ i ≠ 0 ∧ (s.mgr m).ph (i - 1) ≠ .done ∧ (s.mgr m).ph i = .work j.rounds))
  some : ∀ m j js, m < M → (s.mgr m).todo = j :: js → ∃ i < j.blocks, (s.mgr m).ph i ≠ .done

theorem jam {M W : Nat} {s : St} (h : Inv M W s) (hst : Stuck M W s) : Jam M s := by
  have hsub : ∀ m j js, m < M → (s.mgr m).todo = j :: js → (s.mgr m).submitted + 1 = j.blocks := by
    intro m j js hm hj
    have := hst (.submit m)
    simp only [step, hj] at this
    split at this
    · simp at this
    · rename_i hn
      have := (h.b m j js hj).1
      have : ¬ ((s.mgr m).submitted + 1 < j.blocks) := fun hl => hn ⟨hm, hl⟩
      omega
  refine ⟨?_, ?_, ?_⟩
  · intro m j js hm hj i hi hp
    have hs := hsub m j js hm hj
    by_cases hl : i + 1 < j.blocks
    · have hq := (h.i m j js hm hj i hl).1 hp (by omega)
      have := hst (.pop i)
      simp only [step] at this
      cases hqq : s.queue i with
      | nil => rw [hqq] at hq; simp at hq
      | cons t q =>
        cases hr : s.running i with
        | none =>
          rw [hqq, hr] at this; simp only at this
          have hb := (h.b m j js hj).2.1
          rw [if_pos (by omega)] at this; simp at this
        | some t' =>
          obtain ⟨h1, h2, j', js', h3, h4, h5, h6⟩ := h.r i t' hr
          refine ⟨t'.1, j', js', h2, h3, ?_, h4, h6⟩
          intro e; rw [e] at h6; exact h6.1 hp
    · have hi' : i = j.blocks - 1 := by omega
      have := hst (.begin m)
      simp only [step, hj] at this
      rw [if_pos ⟨hm, hs, hi' ▸ hp⟩] at this
      simp at this
  · intro m j js hm hj i hi ha
    cases hp : (s.mgr m).ph i with
    | idle => exact absurd hp ha.1
    | done => exact absurd hp ha.2
    | work r =>
      right
      have hr := (h.b m j js hj).2.2.2.1 i r hp
      by_cases hlt : r < j.rounds
      · have := hst (.arrive m i)
        simp only [step, hj, hp] at this
        rw [if_pos ⟨hm, hi, hlt⟩] at this; simp at this
      · have e : r = j.rounds := by omega
        have := hst (.finish m i)
        simp only [step, hj, hp] at this
        split at this
        · simp at this
        · rename_i hn
          have hc : ¬ (j.chain = true → i = 0 ∨ (s.mgr m).ph (i - 1) = .done) := fun hx => hn ⟨hm, hi, e, hx⟩
          have h1 : j.chain = true := by
            cases hch : j.chain with
            | true => rfl
            | false => exact absurd (fun h => by rw [hch] at h; simp at h) hc
          refine ⟨h1, fun e0 => hc (fun _ => Or.inl e0), fun hd => hc (fun _ => Or.inr hd), by rw [e]⟩
    | «at» r =>
      left
      refine ⟨r, rfl, (h.b m j js hj).2.2.2.2 i r hp, ?_⟩
      have := hst (.pass m i)
      simp only [step, hj, hp] at this
      split at this
      · simp at this
      · rename_i hn
        apply Classical.byContradiction
        intro hx
        refine hn ⟨hm, hi, fun k hk => ?_⟩
        cases hk2 : ((s.mgr m).ph k).reached r with
        | true => rfl
        | false => exact absurd ⟨k, hk, hk2⟩ hx
  · intro m j js hm hj
    have := hst (.complete m)
    simp only [step, hj] at this
    split at this
    · simp at this
    · rename_i hn
      apply Classical.byContradiction
      intro hx
      refine hn ⟨hm, fun i hi => ?_⟩
      apply Classical.byContradiction
      intro hd; exact hx ⟨i, hi, hd⟩

theorem active_of {p : Ph} (h1 : p ≠ .idle) (h2 : p ≠ .done) : Active p := ⟨h1, h2⟩

theorem not_stuck {M W : Nat} {s : St} (h : Inv M W s) (hh : Harmless (fun m => (s.mgr m).todo)) (hf : ¬ Final M s) : ¬ Stuck M W s := by
  intro hst
  have J := jam h hst
  have hex : ∃ m j js, m < M ∧ (s.mgr m).todo = j :: js := by
    apply Classical.byContradiction
    intro hx
    apply hf
    intro m hm
    cases ht : (s.mgr m).todo with
    | nil => rfl
    | cons j js => exact absurd ⟨m, j, js, hm, ht⟩ hx
  rcases hh with hh | ⟨m₀, hh⟩
  · -- no barriers: look at the smallest block number that is not done
    have hmin : ∃ i, ∃ m j js, m < M ∧ (s.mgr m).todo = j :: js ∧ i < j.blocks ∧ (s.mgr m).ph i ≠ .done := by
      obtain ⟨m, j, js, hm, hj⟩ := hex
      obtain ⟨i, hi, hd⟩ := J.some m j js hm hj
      exact ⟨i, m, j, js, hm, hj, hi, hd⟩
    obtain ⟨i, ⟨m, j, js, hm, hj, hi, hd⟩, hmin⟩ := exists_min hmin
    have noact : ∀ m j js, m < M → (s.mgr m).todo = j :: js → i < j.blocks → Active ((s.mgr m).ph i) → False := by
      intro m j js hm hj hi ha
      rcases J.act m j js hm hj i hi ha with ⟨r, h1, h2, -⟩ | ⟨h1, h2, h3, -⟩
      · have := hh m j (by simp [hj]); omega
      · exact hmin (i - 1) (by omega) ⟨m, j, js, hm, hj, by omega, h3⟩
    by_cases hid : (s.mgr m).ph i = .idle
    · obtain ⟨m', j', js', a1, a2, a3, a4, a5⟩ := J.idle m j js hm hj i hi hid
      exact noact m' j' js' a1 a2 (by omega) a5
    · exact noact m j js hm hj hi ⟨hid, hd⟩
  · have noact : ∀ m j js, m < M → m ≠ m₀ → (s.mgr m).todo = j :: js → ∀ i < j.blocks, Active ((s.mgr m).ph i) → False := by
      intro m j js hm hne hj i hi ha
      obtain ⟨e1, e2⟩ := hh m hne j (by simp [hj])
      rcases J.act m j js hm hj i hi ha with ⟨r, h1, h2, -⟩ | ⟨h1, -⟩
      · omega
      · rw [e2] at h1; simp at h1
    by_cases h0 : ∃ j js, m₀ < M ∧ (s.mgr m₀).todo = j :: js
    · obtain ⟨j, js, hm, hj⟩ := h0
      have noidle : ∀ i < j.blocks, (s.mgr m₀).ph i ≠ .idle := by
        intro i hi hid
        obtain ⟨m', j', js', a1, a2, a3, a4, a5⟩ := J.idle m₀ j js hm hj i hi hid
        exact noact m' j' js' a1 a3 a2 i (by omega) a5
      by_cases hat : ∃ r, ∃ i < j.blocks, (s.mgr m₀).ph i = .at r
      · obtain ⟨r, ⟨i, hi, hp⟩, hr⟩ := exists_min hat
        rcases J.act m₀ j js hm hj i hi (by simp [Active, hp]) with ⟨r', h1, h2, k, hk, h3⟩ | ⟨-, -, -, h1⟩
        · rw [hp] at h1; injection h1 with h1; subst h1
          cases hpk : (s.mgr m₀).ph k with
          | idle => exact noidle k hk hpk
          | done => rw [hpk] at h3; simp [Ph.reached] at h3
          | work q =>
            rcases J.act m₀ j js hm hj k hk (by simp [Active, hpk]) with ⟨r', h1, -⟩ | ⟨-, -, -, h1⟩
            · rw [hpk] at h1; simp at h1
            · rw [h1] at h3; simp [Ph.reached] at h3; omega
          | «at» q =>
            rw [hpk] at h3; simp [Ph.reached] at h3
            exact hr q h3 ⟨k, hk, hpk⟩
        · rw [hp] at h1; simp at h1
      · obtain ⟨i, ⟨hi, hd⟩, hmin⟩ := exists_min (J.some m₀ j js hm hj)
        rcases J.act m₀ j js hm hj i hi ⟨noidle i hi, hd⟩ with ⟨r', h1, -⟩ | ⟨-, h1, h2, -⟩
        · exact hat ⟨r', i, hi, h1⟩
        · exact hmin (i - 1) (by omega) ⟨by omega, h2⟩
    · obtain ⟨m, j, js, hm, hj⟩ := hex
      have hne : m ≠ m₀ := by rintro rfl; exact h0 ⟨j, js, hm, hj⟩
      obtain ⟨i, hi, hd⟩ := J.some m j js hm hj
      by_cases hid : (s.mgr m).ph i = .idle
      · obtain ⟨m', j', js', a1, a2, a3, a4, a5⟩ := J.idle m j js hm hj i hi hid
        by_cases e : m' = m₀
        · subst e; exact h0 ⟨j', js', a1, a2⟩
        · exact noact m' j' js' a1 e a2 i (by omega) a5
      · exact noact m j js hm hne hj i hi ⟨hid, hd⟩

def sumTo (f : Nat → Nat) : Nat → Nat
  | 0 => 0
  | n + 1 => sumTo f n + f n

theorem sumTo_congr {f g : Nat → Nat} {n : Nat} (h : ∀ i < n, f i = g i) : sumTo f n = sumTo g n := by
  induction n with
  | zero => rfl
  | succ n ih => simp only [sumTo]; rw [ih (fun i hi => h i (by omega)), h n (by omega)]

theorem sumTo_upd {f g : Nat → Nat} {n i : Nat} (hi : i < n) (h : ∀ k, k ≠ i → g k = f k) : sumTo g n + f i = sumTo f n + g i := by
  induction n with
  | zero => omega
  | succ n ih =>
    simp only [sumTo]
    by_cases e : i = n
    · subst e
      rw [sumTo_congr (g := f) (fun k hk => h k (by omega))]; omega
    · have := ih (by omega); rw [h n (fun e' => e e'.symm)]; omega

theorem sumTo_zero (n : Nat) : sumTo (fun _ => 0) n = 0 := by
  induction n with
  | zero => rfl
  | succ n ih => simp [sumTo, ih]

def remPh (R : Nat) : Ph → Nat
  | .idle => 2 * R + 2
  | .work r => 2 * (R - r) + 1
  | .at r => 2 * (R - r)
  | .done => 0

/-- Steps of a job that has not begun. -/
def cost (j : Job) : Nat := (j.blocks - 1) + 1 + j.blocks * (2 * j.rounds + 2)

def mgrLeft (g : Mgr) : Nat :=
  match g.todo with
  | [] => 0
  | j :: js => (j.blocks - 1 - g.submitted) + 1 + sumTo (fun i => remPh j.rounds (g.ph i)) j.blocks + (js.map cost).sum

def left (M : Nat) (s : St) : Nat := sumTo (fun m => mgrLeft (s.mgr m)) M

theorem mgrLeft_fresh (l : List Job) : mgrLeft ⟨l, 0, fun _ => .idle⟩ = (l.map cost).sum := by
  cases l with
  | nil => rfl
  | cons j js =>
    have : ∀ n, sumTo (fun _ => 2 * j.rounds + 2) n = n * (2 * j.rounds + 2) := by
      intro n; induction n with
      | zero => simp [sumTo]
      | succ n ih => simp only [sumTo, ih]; rw [Nat.add_mul]; omega
    simp only [mgrLeft, remPh, this, List.map_cons, List.sum_cons, cost]; omega

theorem left_mgr {M : Nat} {s s' : St} {m : Nat} (hm : m < M) (h : ∀ k, k ≠ m → s'.mgr k = s.mgr k)
    (h1 : mgrLeft (s'.mgr m) + 1 = mgrLeft (s.mgr m)) : left M s' + 1 = left M s := by
  have := sumTo_upd (f := fun m => mgrLeft (s.mgr m)) (g := fun m => mgrLeft (s'.mgr m)) hm (fun k hk => by rw [h k hk])
  unfold left; omega

theorem mgrLeft_ph {g : Mgr} {j : Job} {js : List Job} {i : Nat} {p : Ph} (hj : g.todo = j :: js) (hi : i < j.blocks)
    (hp : remPh j.rounds p + 1 = remPh j.rounds (g.ph i)) : mgrLeft { g with ph := upd g.ph i p } + 1 = mgrLeft g := by
  simp only [mgrLeft, hj]
  have := sumTo_upd (f := fun k => remPh j.rounds (g.ph k)) (g := fun k => remPh j.rounds (upd g.ph i p k)) hi
    (fun k hk => by rw [upd_other _ _ _ _ hk])
  simp only [upd_same] at this
  omega

theorem step_left {M W : Nat} {s s' : St} {a : Act} (h : Inv M W s) (hs : step M W s a = some s') : left M s' + 1 = left M s := by
  cases a with
  | submit m =>
    simp only [step] at hs
    split at hs
    · simp at hs
    rename_i j js hj
    split at hs
    · rename_i hc
      injection hs with hs; subst hs
      refine left_mgr hc.1 (fun k hk => by simp only [upd_other _ _ _ _ hk]) ?_
      simp only [upd_same, mgrLeft, hj]; omega
    · simp at hs
  | begin m =>
    simp only [step] at hs
    split at hs
    · simp at hs
    rename_i j js hj
    split at hs
    · rename_i hc
      injection hs with hs; subst hs
      refine left_mgr hc.1 (fun k hk => by simp only [St.setPh, upd_other _ _ _ _ hk]) ?_
      simp only [St.setPh, upd_same]
      exact mgrLeft_ph hj (by omega) (by rw [hc.2.2]; simp [remPh])
    · simp at hs
  | pop w =>
    simp only [step] at hs
    split at hs
    · rename_i t q hq hr
      split at hs
      · injection hs with hs; subst hs
        obtain ⟨k1, k2, j, js, k3, k4, k5, k6⟩ := h.q w t (by rw [hq]; simp)
        refine left_mgr k2 (fun k hk => by simp only [St.setPh, upd_other _ _ _ _ hk]) ?_
        simp only [St.setPh, upd_same]
        exact mgrLeft_ph k3 (by omega) (by rw [k1, k6]; simp [remPh])
      · simp at hs
    · simp at hs
  | arrive m i =>
    simp only [step] at hs
    split at hs
    · rename_i j js r hj hp
      split at hs
      · rename_i hc
        injection hs with hs; subst hs
        refine left_mgr hc.1 (fun k hk => by simp only [St.setPh, upd_other _ _ _ _ hk]) ?_
        simp only [St.setPh, upd_same]
        exact mgrLeft_ph hj hc.2.1 (by rw [hp]; simp [remPh])
      · simp at hs
    · simp at hs
  | pass m i =>
    simp only [step] at hs
    split at hs
    · rename_i j js r hj hp
      split at hs
      · rename_i hc
        injection hs with hs; subst hs
        refine left_mgr hc.1 (fun k hk => by simp only [St.setPh, upd_other _ _ _ _ hk]) ?_
        simp only [St.setPh, upd_same]
        have := (h.b m j js hj).2.2.2.2 i r hp
        exact mgrLeft_ph hj hc.2.1 (by rw [hp]; simp only [remPh]; omega)
      · simp at hs
    · simp at hs
  | finish m i =>
    simp only [step] at hs
    split at hs
    · rename_i j js r hj hp
      split at hs
      · rename_i hc
        injection hs with hs; subst hs
        refine left_mgr hc.1 (fun k hk => by simp only [St.setPh, upd_other _ _ _ _ hk]) ?_
        simp only [St.setPh, upd_same]
        exact mgrLeft_ph hj hc.2.1 (by rw [hp, hc.2.2.1]; simp [remPh])
      · simp at hs
    · simp at hs
  | complete m =>
    simp only [step] at hs
    split at hs
    · simp at hs
    rename_i j js hj
    split at hs
    · rename_i hc
      injection hs with hs; subst hs
      refine left_mgr hc.1 (fun k hk => by simp only [upd_other _ _ _ _ hk]) ?_
      simp only [upd_same]; rw [mgrLeft_fresh]
      simp only [mgrLeft, hj]
      have hz : sumTo (fun i => remPh j.rounds ((s.mgr m).ph i)) j.blocks = 0 := by
        rw [sumTo_congr (g := fun _ => 0) (fun i hi => by rw [hc.2 i hi]; rfl)]
        induction j.blocks with
        | zero => rfl
        | succ n ih => simp [sumTo, ih]
      obtain ⟨hb1, hb2, hb3, -⟩ := h.b m j js hj
      have := hb3 (by rw [hc.2 _ (by omega)]; simp)
      omega
    · simp at hs

theorem reach_inv {M W : Nat} {prog : Nat → List Job} (h : JobsOk W prog) {s : St} (hr : Reach (step M W) (init prog) s) :
    Inv M W s ∧ ∀ m, ∀ j ∈ (s.mgr m).todo, j ∈ prog m := by
  refine Reach.inv (P := fun s => Inv M W s ∧ ∀ m, ∀ j ∈ (s.mgr m).todo, j ∈ prog m) ?_ ⟨inv_init h, fun m j hj => hj⟩ hr
  intro s a s' ⟨h1, h2⟩ hs
  exact ⟨inv_step h1 hs, fun m j hj => h2 m j (todo_mem hs m j hj)⟩

theorem run_left {M W : Nat} : ∀ (sched : List Act) (s s' : St), Inv M W s → runSched (step M W) s sched = some s' → left M s' + sched.length = left M s
  | [], s, s', _, h => by simp [runSched] at h; simp [h]
  | a :: l, s, s', hi, h => by
    simp only [runSched] at h
    cases hs : step M W s a with
    | none => simp [hs] at h
    | some s1 =>
      simp [hs] at h
      have := run_left l s1 s' (inv_step hi hs) h
      have := step_left hi hs
      simp only [List.length_cons]; omega

theorem left_init (M : Nat) (prog : Nat → List Job) : left M (init prog) = work M prog := by
  unfold left work
  simp only [init, mgrLeft_fresh]
  induction M with
  | zero => rfl
  | succ M ih => simp only [sumTo, List.range_succ, List.map_append, List.sum_append, ih]; simp; rfl

def acts (M W B : Nat) : List Act :=
  (List.range M).flatMap (fun m => .submit m :: .begin m :: .complete m :: (List.range B).flatMap (fun i => [.arrive m i, .pass m i, .finish m i])) ++
    (List.range W).map .pop

def stuckCheck (M W B : Nat) (s : St) : Bool :=
  (acts M W B).all (fun a => (step M W s a).isNone) && (List.range M).all (fun m => (s.mgr m).todo.all (fun j => decide (j.blocks ≤ B))) &&
    (List.range M).any (fun m => !(s.mgr m).todo.isEmpty)

theorem stuck_of_check {M W B : Nat} {s : St} (h : stuckCheck M W B s = true) : Stuck M W s ∧ ¬ Final M s := by
  simp only [stuckCheck, Bool.and_eq_true, List.all_eq_true, List.any_eq_true, List.mem_range, decide_eq_true_eq] at h
  obtain ⟨⟨h1, h2⟩, m, hm, h3⟩ := h
  constructor
  · intro a
    have hin : ∀ a, a ∈ acts M W B → step M W s a = none := fun a ha => by have := h1 a ha; simpa using this
    have hrange : ∀ m i, ¬ (m < M ∧ i < B) → ∀ a ∈ [Act.arrive m i, .pass m i, .finish m i], step M W s a = none := by
      intro m i hn a ha
      have key : ∀ j js, (s.mgr m).todo = j :: js → ¬ (m < M ∧ i < j.blocks) := by
        rintro j js hj ⟨a1, a2⟩
        have := h2 m a1 j (by simp [hj]); exact hn ⟨a1, by omega⟩
      simp only [List.mem_cons, List.not_mem_nil, or_false] at ha
      rcases ha with rfl | rfl | rfl <;> simp only [step] <;> split <;> try rfl
      all_goals
        rename_i hj _
        rw [if_neg]
        intro hc; exact key _ _ hj ⟨hc.1, hc.2.1⟩
    cases a with
    | submit m =>
      by_cases hm : m < M
      · exact hin _ (by simp only [acts, List.mem_append, List.mem_flatMap, List.mem_range]; left; refine ⟨m, hm, ?_⟩; simp)
      · simp only [step]; split <;> simp [hm]
    | begin m =>
      by_cases hm : m < M
      · exact hin _ (by simp only [acts, List.mem_append, List.mem_flatMap, List.mem_range]; left; refine ⟨m, hm, ?_⟩; simp)
      · simp only [step]; split <;> simp [hm]
    | complete m =>
      by_cases hm : m < M
      · exact hin _ (by simp only [acts, List.mem_append, List.mem_flatMap, List.mem_range]; left; refine ⟨m, hm, ?_⟩; simp)
      · simp only [step]; split <;> simp [hm]
    | pop w =>
      by_cases hw : w < W
      · exact hin _ (by simp [acts, hw])
      · simp only [step]; split <;> simp [hw]
    | arrive m i =>
      by_cases hc : m < M ∧ i < B
      · exact hin _ (by simp only [acts, List.mem_append, List.mem_flatMap, List.mem_range]; left; refine ⟨m, hc.1, ?_⟩; simp [hc.2])
      · exact hrange m i hc _ (by simp)
    | pass m i =>
      by_cases hc : m < M ∧ i < B
      · exact hin _ (by simp only [acts, List.mem_append, List.mem_flatMap, List.mem_range]; left; refine ⟨m, hc.1, ?_⟩; simp [hc.2])
      · exact hrange m i hc _ (by simp)
    | finish m i =>
      by_cases hc : m < M ∧ i < B
      · exact hin _ (by simp only [acts, List.mem_append, List.mem_flatMap, List.mem_range]; left; refine ⟨m, hc.1, ?_⟩; simp [hc.2])
      · exact hrange m i hc _ (by simp)
  · intro hf; rw [hf m hm] at h3; simp at h3

end Mcut.Pool
