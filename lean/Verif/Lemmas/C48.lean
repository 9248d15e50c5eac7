import Verif.Model.Barrier
import Verif.Lemmas.Count
/-! Helper lemmas for the property file of the same name. -/
namespace Mcut.Barrier

/-- Thread `i` has not yet taken a space of the current generation. -/
def fresh (s : St) (i : Nat) : Bool :=
  match s.pc i with
  | .out => true
  | .read _ => true
  | .spin g => decide (g ≠ s.gen)
  | .reset => false
  | .bump => false

/-- Per-thread part of the invariant. -/
def Local (s : St) (i : Nat) : Prop :=
  match s.pc i with
  | .out => s.entered i = s.left i ∧ s.left i = s.gen
  | .read g => g = s.gen ∧ s.left i = s.gen ∧ s.entered i = s.left i + 1
  | .spin g => g = s.left i ∧ s.entered i = s.left i + 1 ∧ s.left i ≤ s.gen ∧ s.gen ≤ s.left i + 1
  | .reset => s.left i = s.gen ∧ s.entered i = s.left i + 1
  | .bump => s.left i = s.gen ∧ s.entered i = s.left i + 1

/-- Global part: no thread is resetting, or exactly one is and all others spin in the current generation. -/
def Phase (n : Nat) (s : St) : Prop :=
  ((∀ i, i < n → s.pc i ≠ .reset ∧ s.pc i ≠ .bump) ∧ s.spaces = cnt (fresh s) n ∧ 0 < s.spaces) ∨
  (∃ r, r < n ∧ s.pc r = .reset ∧ s.spaces = 0 ∧ ∀ j, j < n → j ≠ r → s.pc j = .spin s.gen) ∨
  (∃ r, r < n ∧ s.pc r = .bump ∧ s.spaces = n ∧ ∀ j, j < n → j ≠ r → s.pc j = .spin s.gen)

def Inv (n : Nat) (s : St) : Prop := (∀ i, i < n → Local s i) ∧ Phase n s

theorem inv_init (n : Nat) (hn : 0 < n) : Inv n (init n) := by
  refine ⟨fun i _ => by simp [Local, init], Or.inl ⟨fun i _ => by simp [init], ?_, by simpa [init] using hn⟩⟩
  rw [cnt_all _ n (fun j _ => by simp [fresh, init])]; rfl

theorem local_frame (s s' : St) (j : Nat) (h1 : s'.pc j = s.pc j) (h2 : s'.gen = s.gen)
    (h3 : s'.entered j = s.entered j) (h4 : s'.left j = s.left j) (h : Local s j) : Local s' j := by
  unfold Local at *; rw [h1, h2, h3, h4]; exact h

theorem fresh_frame (s s' : St) (j : Nat) (h1 : s'.pc j = s.pc j) (h2 : s'.gen = s.gen) :
    fresh s' j = fresh s j := by
  unfold fresh; rw [h1, h2]

theorem inv_step (n : Nat) (s : St) (i : Nat) (s' : St) (h : Inv n s) (hs : step n s i = some s') : Inv n s' := by
  obtain ⟨hl, hp⟩ := h
  unfold step at hs
  split at hs
  case isFalse => cases hs
  case isTrue hi =>
  have hli := hl i hi
  split at hs
  · -- enter
    rename_i hpc
    simp only [Local, hpc] at hli
    cases hs
    refine ⟨fun j hj => ?_, ?_⟩
    · by_cases hji : j = i
      · subst hji; simp [Local, hli.1, hli.2]
      · exact local_frame s _ j (upd_other _ _ _ _ hji) rfl (upd_other _ _ _ _ hji) rfl (hl j hj)
    · rcases hp with ⟨h1, h2, h3⟩ | ⟨r, hr, h1, h2, h3⟩ | ⟨r, hr, h1, h2, h3⟩
      · refine Or.inl ⟨fun j hj => ?_, ?_, h3⟩
        · by_cases hji : j = i
          · subst hji; simp
          · simpa [upd, hji] using h1 j hj
        · rw [h2]; apply Eq.symm; apply cnt_congr
          intro j hj
          by_cases hji : j = i
          · subst hji; simp [fresh, hpc]
          · exact fresh_frame s _ j (upd_other _ _ _ _ hji) rfl
      · have hir : i ≠ r := by intro e; subst e; rw [hpc] at h1; cases h1
        have := h3 i hi hir; rw [hpc] at this; cases this
      · have hir : i ≠ r := by intro e; subst e; rw [hpc] at h1; cases h1
        have := h3 i hi hir; rw [hpc] at this; cases this
  · -- decrement
    rename_i g hpc
    simp only [Local, hpc] at hli
    obtain ⟨hg, hli1, hli2⟩ := hli
    subst hg
    rcases hp with ⟨h1, h2, h3⟩ | ⟨r, hr, h1, h2, h3⟩ | ⟨r, hr, h1, h2, h3⟩
    · have hne : ¬ s.spaces = 0 := by omega
      simp only [hne, if_false] at hs
      split at hs
      · rename_i hsp
        cases hs
        refine ⟨fun j hj => ?_, Or.inr (Or.inl ⟨i, hi, by simp, hsp, fun j hj hji => ?_⟩)⟩
        · by_cases hji : j = i
          · subst hji; simp [Local, hli1, hli2]
          · exact local_frame s _ j (upd_other _ _ _ _ hji) rfl rfl rfl (hl j hj)
        · have hc1 : cnt (fresh s) n = 1 := by omega
          have hf := cnt_one (fresh s) n i hc1 hi (by simp [fresh, hpc]) j hj hji
          have hnr := h1 j hj
          simp only [upd, hji, if_false]
          unfold fresh at hf
          split at hf <;> first | cases hf | skip
          · rename_i g hg; rw [hg]; simp at hf; rw [hf]
          · rename_i hx; exact absurd hx hnr.1
          · rename_i hx; exact absurd hx hnr.2
      · rename_i hsp
        cases hs
        refine ⟨fun j hj => ?_, Or.inl ⟨fun j hj => ?_, ?_, ?_⟩⟩
        · by_cases hji : j = i
          · subst hji; simp [Local, hli1, hli2]
          · exact local_frame s _ j (upd_other _ _ _ _ hji) rfl rfl rfl (hl j hj)
        · by_cases hji : j = i
          · subst hji; simp
          · simpa [upd, hji] using h1 j hj
        · have := cnt_drop (fresh s) (fresh { s with spaces := s.spaces - 1, pc := upd s.pc i (.spin s.gen) }) n i hi
            (fun j hji => fresh_frame s _ j (upd_other _ _ _ _ hji) rfl) (by simp [fresh, hpc]) (by simp [fresh])
          show s.spaces - 1 = _
          omega
        · show 0 < s.spaces - 1
          omega
    · have hir : i ≠ r := by intro e; subst e; rw [hpc] at h1; cases h1
      have := h3 i hi hir; rw [hpc] at this; cases this
    · have hir : i ≠ r := by intro e; subst e; rw [hpc] at h1; cases h1
      have := h3 i hi hir; rw [hpc] at this; cases this
  · -- reset
    rename_i hpc
    simp only [Local, hpc] at hli
    cases hs
    refine ⟨fun j hj => ?_, ?_⟩
    · by_cases hji : j = i
      · subst hji; simp [Local, hli.1, hli.2]
      · exact local_frame s _ j (upd_other _ _ _ _ hji) rfl rfl rfl (hl j hj)
    · rcases hp with ⟨h1, h2, h3⟩ | ⟨r, hr, h1, h2, h3⟩ | ⟨r, hr, h1, h2, h3⟩
      · exact absurd hpc (h1 i hi).1
      · have hir : i = r := by
          apply Classical.byContradiction; intro e
          have := h3 i hi e; rw [hpc] at this; cases this
        subst hir
        refine Or.inr (Or.inr ⟨i, hi, by simp, rfl, fun j hj hji => ?_⟩)
        simpa [upd, hji] using h3 j hj hji
      · have hir : i ≠ r := by intro e; subst e; rw [hpc] at h1; cases h1
        have := h3 i hi hir; rw [hpc] at this; cases this
  · -- bump
    rename_i hpc
    simp only [Local, hpc] at hli
    rcases hp with ⟨h1, h2, h3⟩ | ⟨r, hr, h1, h2, h3⟩ | ⟨r, hr, h1, h2, h3⟩
    · exact absurd hpc (h1 i hi).2
    · have hir : i ≠ r := by intro e; subst e; rw [hpc] at h1; cases h1
      have := h3 i hi hir; rw [hpc] at this; cases this
    · have hir : i = r := by
        apply Classical.byContradiction; intro e
        have := h3 i hi e; rw [hpc] at this; cases this
      subst hir
      cases hs
      refine ⟨fun j hj => ?_, Or.inl ⟨fun j hj => ?_, ?_, ?_⟩⟩
      · by_cases hji : j = i
        · subst hji; simp [Local, hli.1, hli.2]
        · have hlj := hl j hj
          have hpj := h3 j hj hji
          simp only [Local, hpj] at hlj
          simp only [Local, upd_other _ _ _ _ hji, hpj]
          omega
      · by_cases hji : j = i
        · subst hji; simp
        · simp [upd, hji, h3 j hj hji]
      · show s.spaces = _
        rw [h2, cnt_all _ n]
        intro j hj
        by_cases hji : j = i
        · subst hji; simp [fresh]
        · simp [fresh, upd, hji, h3 j hj hji]
      · show 0 < s.spaces
        omega
  · -- spin
    rename_i g hpc
    simp only [Local, hpc] at hli
    split at hs
    · cases hs
    · rename_i hne
      cases hs
      refine ⟨fun j hj => ?_, ?_⟩
      · by_cases hji : j = i
        · subst hji; simp only [Local, upd_same]; omega
        · exact local_frame s _ j (upd_other _ _ _ _ hji) rfl rfl (upd_other _ _ _ _ hji) (hl j hj)
      · rcases hp with ⟨h1, h2, h3⟩ | ⟨r, hr, h1, h2, h3⟩ | ⟨r, hr, h1, h2, h3⟩
        · refine Or.inl ⟨fun j hj => ?_, ?_, h3⟩
          · by_cases hji : j = i
            · subst hji; simp
            · simpa [upd, hji] using h1 j hj
          · rw [h2]; apply Eq.symm; apply cnt_congr
            intro j hj
            by_cases hji : j = i
            · subst hji; simp [fresh, hpc]; exact fun e => hne e.symm
            · exact fresh_frame s _ j (upd_other _ _ _ _ hji) rfl
        · have hir : i ≠ r := by intro e; subst e; rw [hpc] at h1; cases h1
          have := h3 i hi hir; rw [hpc] at this; injection this with hgg; exact absurd hgg.symm hne
        · have hir : i ≠ r := by intro e; subst e; rw [hpc] at h1; cases h1
          have := h3 i hi hir; rw [hpc] at this; injection this with hgg; exact absurd hgg.symm hne

theorem reach_inv (n : Nat) (hn : 0 < n) (s : St) (hr : Reach (step n) (init n) s) : Inv n s :=
  Reach.inv (inv_step n) (inv_init n hn) hr

theorem progress (n : Nat) (s : St) (h : Inv n s) (i : Nat) (hi : i < n) (hin : s.pc i ≠ .out)
    (hall : ∀ j, j < n → s.left i + 1 ≤ s.entered j) : ∃ j s', insideStep n s j = some s' := by
  obtain ⟨hl, hp⟩ := h
  have hli := hl i hi
  -- a thread that can certainly move
  have mv : ∀ j, j < n → s.pc j ≠ .out → (∀ g, s.pc j = .spin g → s.gen ≠ g) → ∃ s', insideStep n s j = some s' := by
    intro j hj ho hsp
    unfold insideStep; rw [if_neg ho]; unfold step; rw [if_pos hj]
    cases hpc : s.pc j with
    | out => exact absurd hpc ho
    | read g => simp only; split <;> (split <;> exact ⟨_, rfl⟩)
    | reset => exact ⟨_, rfl⟩
    | bump => exact ⟨_, rfl⟩
    | spin g => simp only; rw [if_neg (hsp g hpc)]; exact ⟨_, rfl⟩
  rcases hp with ⟨h1, h2, h3⟩ | ⟨r, hr, h1, h2, h3⟩ | ⟨r, hr, h1, h2, h3⟩
  · by_cases hst : ∃ g, s.pc i = .spin g ∧ s.gen ≠ g
    · obtain ⟨g, hg, hne⟩ := hst
      obtain ⟨s', hs'⟩ := mv i hi hin (fun g' hg' => by rw [hg] at hg'; injection hg' with e; rw [← e]; exact hne)
      exact ⟨i, s', hs'⟩
    · have hleft : s.left i = s.gen := by
        unfold Local at hli
        split at hli
        · rename_i hx; exact absurd hx hin
        · omega
        · rename_i g hg
          have : s.gen = g := Classical.byContradiction (fun hne => hst ⟨g, hg, hne⟩)
          omega
        · omega
        · omega
      obtain ⟨j, hj, hf⟩ := cnt_pos (fresh s) n (by omega)
      have hlj := hl j hj
      have hej := hall j hj
      unfold fresh at hf
      have hread : ∃ g, s.pc j = .read g := by
        unfold Local at hlj
        split at hlj
        · omega
        · rename_i g hg; exact ⟨g, hg⟩
        · rename_i g hg; simp [hg] at hf; omega
        · rename_i hx; simp [hx] at hf
        · rename_i hx; simp [hx] at hf
      obtain ⟨g, hg⟩ := hread
      obtain ⟨s', hs'⟩ := mv j hj (by rw [hg]; simp) (fun g' hg' => by rw [hg] at hg'; cases hg')
      exact ⟨j, s', hs'⟩
  · obtain ⟨s', hs'⟩ := mv r hr (by rw [h1]; simp) (fun g hg => by rw [h1] at hg; cases hg)
    exact ⟨r, s', hs'⟩
  · obtain ⟨s', hs'⟩ := mv r hr (by rw [h1]; simp) (fun g hg => by rw [h1] at hg; cases hg)
    exact ⟨r, s', hs'⟩

/-- Remaining steps inside the current wait. -/
def wt : PC → Nat
  | .out => 0
  | .read _ => 3
  | .reset => 2
  | .bump => 1
  | .spin _ => 1

def wtAll (s : St) : Nat → Nat
  | 0 => 0
  | n + 1 => wtAll s n + wt (s.pc n)

theorem wtAll_le (s : St) (n : Nat) : wtAll s n ≤ 3 * n := by
  induction n with
  | zero => simp [wtAll]
  | succ n ih => simp only [wtAll]; have : wt (s.pc n) ≤ 3 := by cases s.pc n <;> simp [wt]
                 omega

theorem wtAll_congr (s s' : St) (n : Nat) (h : ∀ j, j < n → s'.pc j = s.pc j) : wtAll s' n = wtAll s n := by
  induction n with
  | zero => rfl
  | succ n ih => simp only [wtAll]; rw [ih (fun j hj => h j (by omega)), h n (by omega)]

theorem step_other (n : Nat) (s s' : St) (i : Nat) (hs : step n s i = some s') (j : Nat) (hj : j ≠ i) :
    s'.pc j = s.pc j ∧ s'.left j = s.left j := by
  unfold step at hs
  split at hs
  case isFalse => cases hs
  case isTrue =>
    split at hs
    · cases hs; exact ⟨upd_other _ _ _ _ hj, rfl⟩
    · simp only at hs
      generalize (if s.spaces = 0 then 2 ^ 32 - 1 else s.spaces - 1) = sp at hs
      split at hs
      · cases hs; exact ⟨upd_other _ _ _ _ hj, rfl⟩
      · cases hs; exact ⟨upd_other _ _ _ _ hj, rfl⟩
    · cases hs; exact ⟨upd_other _ _ _ _ hj, rfl⟩
    · cases hs; exact ⟨upd_other _ _ _ _ hj, upd_other _ _ _ _ hj⟩
    · split at hs
      · cases hs
      · cases hs; exact ⟨upd_other _ _ _ _ hj, upd_other _ _ _ _ hj⟩

theorem inside_spec (n : Nat) (s s' : St) (i : Nat) (hs : insideStep n s i = some s') :
    i < n ∧ step n s i = some s' ∧ wt (s'.pc i) < wt (s.pc i) ∧ s'.entered = s.entered ∧
    ((s'.pc i = .out ∧ s'.left i = s.left i + 1) ∨ (s'.pc i ≠ .out ∧ s'.left i = s.left i)) := by
  unfold insideStep at hs
  split at hs
  · cases hs
  · rename_i ho
    have hcopy := hs
    unfold step at hs
    split at hs
    case isFalse => cases hs
    case isTrue hi =>
      refine ⟨hi, hcopy, ?_⟩
      split at hs
      · rename_i hpc; exact absurd hpc ho
      · rename_i g hpc
        simp only at hs
        generalize (if s.spaces = 0 then 2 ^ 32 - 1 else s.spaces - 1) = sp at hs
        split at hs
        · cases hs; simp [wt, hpc]
        · cases hs; simp [wt, hpc]
      · rename_i hpc; cases hs; simp [wt, hpc]
      · rename_i hpc; cases hs; simp [wt, hpc]
      · rename_i g hpc
        split at hs
        · cases hs
        · cases hs; simp [wt, hpc]

theorem wtAll_lt (s s' : St) (i n : Nat) (hi : i < n) (ho : ∀ j, j ≠ i → s'.pc j = s.pc j)
    (h : wt (s'.pc i) < wt (s.pc i)) : wtAll s' n < wtAll s n := by
  induction n with
  | zero => omega
  | succ n ih =>
    simp only [wtAll]
    by_cases hin : i = n
    · subst hin; rw [wtAll_congr s s' i (fun j hj => ho j (by omega))]; omega
    · have := ih (by omega); rw [ho n (fun e => hin e.symm)]; omega

end Mcut.Barrier
