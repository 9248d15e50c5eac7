import Verif.Model.Find
import Verif.Lemmas.C17
/-! Helper lemmas for the property file of the same name. -/
namespace Mcut.Find
open Mcut.Sched

/-- Invariant of the search; `act i`: thread `i` really searches its block. -/
structure Inv (pred : Nat → Bool) (n : Nat) (start stop : Nat → Nat) (act : Nat → Prop) (s : St) : Prop where
  lo : ∀ i, i < n → start i ≤ s.pos i
  hi : ∀ i, i < n → s.pos i ≤ stop i
  miss : ∀ i, i < n → ∀ k, start i ≤ k → k < s.pos i → pred k = false
  setp : ∀ i p, i < n → s.pc i = .set p → pred p = true ∧ start i ≤ p ∧ p < stop i ∧ act i
  res : ∀ p, s.result = some p → pred p = true ∧ ∃ i, i < n ∧ act i ∧ start i ≤ p ∧ p < stop i
  doneRes : s.done = true → s.result ≠ none
  storeRes : ∀ i, i < n → s.pc i = .store → s.result ≠ none
  resPending : s.result ≠ none → s.done = true ∨ ∃ i, i < n ∧ s.pc i = .store
  exit : ∀ i, i < n → act i → s.pc i = .exited → s.result ≠ none ∨ s.pos i = stop i
  inact : ∀ i, i < n → ¬ act i → s.pc i = .exited

theorem inv_step (pred : Nat → Bool) (n : Nat) (start stop : Nat → Nat) (act : Nat → Prop) (s : St) (i : Nat) (s' : St)
    (h : Inv pred n start stop act s) (hs : step pred n stop s i = some s') : Inv pred n start stop act s' := by
  unfold step at hs
  split at hs
  case isFalse => cases hs
  case isTrue hi =>
  have hact : s.pc i ≠ .exited → act i := fun hne => Classical.byContradiction (fun hna => hne (h.inact i hi hna))
  split at hs
  · rename_i hpc
    have hai := hact (by rw [hpc]; simp)
    split at hs
    · rename_i hc
      cases hs
      refine ⟨h.lo, h.hi, h.miss, ?_, h.res, h.doneRes, ?_, ?_, ?_, ?_⟩
      · intro j p hj hp
        by_cases hji : j = i
        · subst hji; simp at hp
        · exact h.setp j p hj (by simpa [upd, hji] using hp)
      · intro j hj hp
        by_cases hji : j = i
        · subst hji; simp at hp
        · exact h.storeRes j hj (by simpa [upd, hji] using hp)
      · intro hr
        rcases h.resPending hr with hd | ⟨j, hj, hp⟩
        · exact Or.inl hd
        · refine Or.inr ⟨j, hj, ?_⟩
          have : j ≠ i := by intro e; subst e; rw [hpc] at hp; cases hp
          simpa [upd, this] using hp
      · intro j hj ha hp
        by_cases hji : j = i
        · subst hji
          rcases hc with hc | hc
          · exact Or.inr hc
          · exact Or.inl (h.doneRes hc)
        · exact h.exit j hj ha (by simpa [upd, hji] using hp)
      · intro j hj hna
        by_cases hji : j = i
        · subst hji; simp
        · simpa [upd, hji] using h.inact j hj hna
    · rename_i hc
      have hne : s.pos i ≠ stop i := fun e => hc (Or.inl e)
      have hlt : s.pos i < stop i := by have := h.hi i hi; omega
      split at hs
      · rename_i hpred
        cases hs
        refine ⟨h.lo, h.hi, h.miss, ?_, h.res, h.doneRes, ?_, ?_, ?_, ?_⟩
        · intro j p hj hp
          by_cases hji : j = i
          · subst hji
            simp at hp; subst hp
            exact ⟨hpred, h.lo j hj, hlt, hai⟩
          · exact h.setp j p hj (by simpa [upd, hji] using hp)
        · intro j hj hp
          by_cases hji : j = i
          · subst hji; simp at hp
          · exact h.storeRes j hj (by simpa [upd, hji] using hp)
        · intro hr
          rcases h.resPending hr with hd | ⟨j, hj, hp⟩
          · exact Or.inl hd
          · refine Or.inr ⟨j, hj, ?_⟩
            have : j ≠ i := by intro e; subst e; rw [hpc] at hp; cases hp
            simpa [upd, this] using hp
        · intro j hj ha hp
          by_cases hji : j = i
          · subst hji; simp at hp
          · exact h.exit j hj ha (by simpa [upd, hji] using hp)
        · intro j hj hna
          by_cases hji : j = i
          · subst hji; exact absurd hai hna
          · simpa [upd, hji] using h.inact j hj hna
      · rename_i hpred
        cases hs
        refine ⟨?_, ?_, ?_, h.setp, h.res, h.doneRes, h.storeRes, h.resPending, ?_, h.inact⟩
        · intro j hj
          by_cases hji : j = i
          · subst hji; have := h.lo j hj; simp; omega
          · simpa [upd, hji] using h.lo j hj
        · intro j hj
          by_cases hji : j = i
          · subst hji; simp; omega
          · simpa [upd, hji] using h.hi j hj
        · intro j hj k hk1 hk2
          by_cases hji : j = i
          · subst hji
            simp at hk2
            by_cases hk : k = s.pos j
            · subst hk; simpa using hpred
            · exact h.miss j hj k hk1 (by omega)
          · exact h.miss j hj k hk1 (by simpa [upd, hji] using hk2)
        · intro j hj ha hp
          by_cases hji : j = i
          · subst hji; rw [hpc] at hp; cases hp
          · rcases h.exit j hj ha hp with h1 | h1
            · exact Or.inl h1
            · exact Or.inr (by simpa [upd, hji] using h1)
  · rename_i p hpc
    have hai := hact (by rw [hpc]; simp)
    have hsp := h.setp i p hi hpc
    split at hs
    · rename_i hr
      cases hs
      refine ⟨h.lo, h.hi, h.miss, ?_, ?_, ?_, ?_, ?_, ?_, ?_⟩
      · intro j q hj hp
        by_cases hji : j = i
        · subst hji; simp at hp
        · exact h.setp j q hj (by simpa [upd, hji] using hp)
      · intro q hq; simp at hq; subst hq; exact ⟨hsp.1, i, hi, hai, hsp.2.1, hsp.2.2.1⟩
      · intro _; simp
      · intro _ _ _; simp
      · intro _; exact Or.inr ⟨i, hi, by simp⟩
      · intro _ _ _ _; exact Or.inl (by simp)
      · intro j hj hna
        by_cases hji : j = i
        · subst hji; exact absurd hai hna
        · simpa [upd, hji] using h.inact j hj hna
    · rename_i q hr
      cases hs
      refine ⟨h.lo, h.hi, h.miss, ?_, h.res, h.doneRes, ?_, ?_, ?_, ?_⟩
      · intro j q hj hp
        by_cases hji : j = i
        · subst hji; simp at hp
        · exact h.setp j q hj (by simpa [upd, hji] using hp)
      · intro j hj hp
        by_cases hji : j = i
        · subst hji; simp at hp
        · exact h.storeRes j hj (by simpa [upd, hji] using hp)
      · intro hr
        rcases h.resPending hr with hd | ⟨j, hj, hp⟩
        · exact Or.inl hd
        · refine Or.inr ⟨j, hj, ?_⟩
          have : j ≠ i := by intro e; subst e; rw [hpc] at hp; cases hp
          simpa [upd, this] using hp
      · intro j hj ha hp; exact Or.inl (by simp [hr])
      · intro j hj hna
        by_cases hji : j = i
        · subst hji; simp
        · simpa [upd, hji] using h.inact j hj hna
  · rename_i hpc
    have hrn := h.storeRes i hi hpc
    cases hs
    refine ⟨h.lo, h.hi, h.miss, ?_, h.res, ?_, ?_, ?_, ?_, ?_⟩
    · intro j q hj hp
      by_cases hji : j = i
      · subst hji; simp at hp
      · exact h.setp j q hj (by simpa [upd, hji] using hp)
    · intro _; exact hrn
    · intro _ _ _; exact hrn
    · intro _; exact Or.inl rfl
    · intro _ _ _ _; exact Or.inl hrn
    · intro j hj hna
      by_cases hji : j = i
      · subst hji; simp
      · simpa [upd, hji] using h.inact j hj hna
  · cases hs

/-- At the end: a returned position matches and lies in a searched block; no returned position means that no
searched block contains a match. -/
theorem inv_final (pred : Nat → Bool) (n : Nat) (start stop : Nat → Nat) (act : Nat → Prop) (s : St)
    (h : Inv pred n start stop act s) (hex : ∀ i, i < n → s.pc i = .exited) :
    (∀ p, ret s = some p → pred p = true ∧ ∃ i, i < n ∧ act i ∧ start i ≤ p ∧ p < stop i) ∧
    (ret s = none → ∀ i, i < n → act i → ∀ k, start i ≤ k → k < stop i → pred k = false) := by
  constructor
  · intro p hp
    unfold ret at hp
    split at hp
    · exact h.res p hp
    · cases hp
  · intro hr i hi ha k hk1 hk2
    unfold ret at hr
    have hnone : s.result = none := by
      cases hres : s.result with
      | none => rfl
      | some q =>
        have : s.result ≠ none := by simp [hres]
        rcases h.resPending this with hd | ⟨j, hj, hp⟩
        · simp [hd, hres] at hr
        · rw [hex j hj] at hp; cases hp
    rcases h.exit i hi ha (hex i hi) with h1 | h1
    · exact absurd hnone h1
    · exact h.miss i hi k hk1 (by omega)

theorem blocks_bound (start w block last : Nat) (hb : 0 < block) (h : start + w * block < last) (i : Nat)
    (hi : i < w + 1) : startOf (blocksFrom start w block last) i < stopOf (blocksFrom start w block last) i ∧
      stopOf (blocksFrom start w block last) i ≤ last := by
  have hlen := blocksFrom_length start w block last
  have hm : (blocksFrom start w block last)[i]'(by omega) ∈ blocksFrom start w block last := List.getElem_mem _
  have := blocksFrom_nonempty start w block last hb h _ hm
  simp only [startOf, stopOf, List.getElem?_eq_getElem (show i < (blocksFrom start w block last).length by omega)]
  simpa using this

/-- Facts about the blocks of a call, packaged. -/
theorem call_blocks (len avail minPer : Nat) (hl : 0 < len) (ha : 0 < avail) (hm : 0 < minPer)
    (hov : len + minPer ≤ 2 ^ 32) :
    ∃ bs, parallelForBlocks len avail minPer = .ok bs ∧ 0 < bs.length ∧
      (∀ i, i < bs.length → startOf bs i < stopOf bs i ∧ stopOf bs i ≤ len) ∧
      (∀ k, k < len ↔ ∃ i, i < bs.length ∧ startOf bs i ≤ k ∧ k < stopOf bs i) := by
  obtain ⟨p, hp, hpos, hle, hb, hbe, -⟩ := schedulingParams_ok len avail minPer hl ha hm hov
  have h1 : p.numThreads * p.blockSize ≤ len := by rw [hbe]; exact Nat.mul_div_le len p.numThreads
  have h2 : p.numThreads * p.blockSize = (p.numThreads - 1) * p.blockSize + p.blockSize := by
    have : p.numThreads = (p.numThreads - 1) + 1 := by omega
    rw [this, Nat.succ_mul]; simp
  refine ⟨blocksFrom 0 (p.numThreads - 1) p.blockSize len, by simp [parallelForBlocks, hp], ?_, ?_, ?_⟩
  · rw [blocksFrom_length]; omega
  · intro i hi
    rw [blocksFrom_length] at hi
    exact blocks_bound 0 _ _ _ hb (by omega) i hi
  · intro k
    have hflat := blocksFrom_flat 0 (p.numThreads - 1) p.blockSize len (by omega)
    have hmem : k ∈ (blocksFrom 0 (p.numThreads - 1) p.blockSize len).flatMap blockIndices ↔ k < len := by
      rw [hflat]; simp [List.mem_range'_1]
    rw [← hmem, List.mem_flatMap]
    constructor
    · rintro ⟨b, hb', hk⟩
      obtain ⟨i, hi, rfl⟩ := List.getElem_of_mem hb'
      refine ⟨i, hi, ?_⟩
      simp only [blockIndices, List.mem_range'_1] at hk
      simp only [startOf, stopOf, List.getElem?_eq_getElem hi]
      simp; omega
    · rintro ⟨i, hi, h1, h2⟩
      refine ⟨_, List.getElem_mem hi, ?_⟩
      simp only [startOf, stopOf, List.getElem?_eq_getElem hi] at h1 h2
      simp only [blockIndices, List.mem_range'_1]
      simp at h1 h2; omega

theorem inv_init (pred : Nat → Bool) (bs : List (Nat × Nat)) (act : Nat → Prop) (s : St)
    (hb : ∀ i, i < bs.length → startOf bs i < stopOf bs i)
    (hpos : s.pos = startOf bs) (hres : s.result = none) (hdone : s.done = false)
    (hpc : ∀ i, i < bs.length → (act i ∧ s.pc i = .search) ∨ (¬ act i ∧ s.pc i = .exited)) :
    Inv pred bs.length (startOf bs) (stopOf bs) act s := by
  refine ⟨?_, ?_, ?_, ?_, ?_, ?_, ?_, ?_, ?_, ?_⟩
  · intro i _; rw [hpos]; exact Nat.le_refl _
  · intro i hi; rw [hpos]; have := hb i hi; omega
  · intro i _ k h1 h2; rw [hpos] at h2; omega
  · intro i p hi hp; rcases hpc i hi with ⟨_, h⟩ | ⟨_, h⟩ <;> rw [h] at hp <;> cases hp
  · intro p hp; rw [hres] at hp; cases hp
  · intro h; rw [hdone] at h; cases h
  · intro i hi hp; rcases hpc i hi with ⟨_, h⟩ | ⟨_, h⟩ <;> rw [h] at hp <;> cases hp
  · intro h; exact absurd hres h
  · intro i hi ha hp
    rcases hpc i hi with ⟨_, h⟩ | ⟨hn, _⟩
    · rw [h] at hp; cases hp
    · exact absurd ha hn
  · intro i hi hn
    rcases hpc i hi with ⟨ha, _⟩ | ⟨_, h⟩
    · exact absurd ha hn
    · exact h

/-- Remaining work of the searching threads. -/
def workAll (stop : Nat → Nat) (s : St) : Nat → Nat
  | 0 => 0
  | n + 1 => workAll stop s n + (match s.pc n with
      | .search => stop n - s.pos n + 3
      | .set _ => 2
      | .store => 1
      | .exited => 0)

theorem workAll_congr (stop : Nat → Nat) (s s' : St) (n : Nat)
    (h : ∀ j, j < n → s'.pc j = s.pc j ∧ s'.pos j = s.pos j) : workAll stop s' n = workAll stop s n := by
  induction n with
  | zero => rfl
  | succ n ih =>
    simp only [workAll]; rw [ih (fun j hj => h j (by omega)), (h n (by omega)).1, (h n (by omega)).2]

theorem workAll_step (pred : Nat → Bool) (n m : Nat) (stop : Nat → Nat) (s s' : St) (i : Nat) (him : i < m)
    (hle : s.pos i ≤ stop i) (hs : step pred n stop s i = some s') : workAll stop s' m < workAll stop s m := by
  have hoth : ∀ j, j ≠ i → s'.pc j = s.pc j ∧ s'.pos j = s.pos j := by
    intro j hj
    unfold step at hs
    split at hs
    case isFalse => cases hs
    case isTrue =>
      split at hs
      · split at hs
        · cases hs; exact ⟨upd_other _ _ _ _ hj, rfl⟩
        · split at hs
          · cases hs; exact ⟨upd_other _ _ _ _ hj, rfl⟩
          · cases hs; exact ⟨rfl, upd_other _ _ _ _ hj⟩
      · split at hs <;> · cases hs; exact ⟨upd_other _ _ _ _ hj, rfl⟩
      · cases hs; exact ⟨upd_other _ _ _ _ hj, rfl⟩
      · cases hs
  induction m with
  | zero => omega
  | succ m ih =>
    by_cases h : i = m
    · subst h
      simp only [workAll]
      rw [workAll_congr stop s s' i (fun j hj => hoth j (by omega))]
      apply Nat.add_lt_add_left
      unfold step at hs
      split at hs
      case isFalse => cases hs
      case isTrue =>
        split at hs
        · rename_i hpc
          split at hs
          · cases hs; simp [hpc]
          · rename_i hc
            split at hs
            · cases hs; simp [hpc]
            · cases hs
              have : s.pos i ≠ stop i := fun e => hc (Or.inl e)
              have h3 : s.pos i < stop i := by omega
              simp only [hpc, upd_same]
              have h4 : stop i - (s.pos i + 1) < stop i - s.pos i := by omega
              exact Nat.add_lt_add_right h4 3
        · rename_i p hpc
          split at hs <;> · cases hs; simp [hpc]
        · rename_i hpc; cases hs; simp [hpc]
        · cases hs
    · have := ih (by omega)
      simp only [workAll]
      obtain ⟨h1, h2⟩ := hoth m (fun e => h e.symm)
      rw [h1, h2]; omega

end Mcut.Find
