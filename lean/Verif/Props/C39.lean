import Mathlib.Data.Nat.Bitwise
import Verif.Spec.C39
import Mathlib.Data.List.Perm.Basic

/-!
# C39: dispatch filters keep exactly the requested component kinds
-/
namespace Mcut.Dispatch
variable {D : Type}

theorem has_bit (flags i : Nat) : has flags (2 ^ i) = flags.testBit i := by
  unfold has
  rw [Nat.and_two_pow]
  cases flags.testBit i <;> simp

theorem has_or (flags a b : Nat) : has flags (a ||| b) = (has flags a || has flags b) := by
  unfold has
  rw [Nat.and_or_distrib_left]
  rw [Bool.eq_iff_iff]
  simp only [ne_eq, decide_eq_true_eq, Bool.or_eq_true, Nat.or_eq_zero_iff]
  tauto

theorem has_filter (flags : Nat) : has flags filterMask = true ↔ Filtering flags := by
  unfold filterMask fAbove fBelow fLocUndefined fSealIn fSealOut fSealNone fPatchIn fPatchOut fSeamSrc fSeamCut Filtering
  simp only [has_or, has_bit, Bool.or_eq_true]
  constructor
  · rintro (((((((((h | h) | h) | h) | h) | h) | h) | h) | h) | h) <;> exact ⟨_, by omega, by omega, h⟩
  · rintro ⟨i, h1, h2, h⟩
    have : i = 5 ∨ i = 6 ∨ i = 7 ∨ i = 8 ∨ i = 9 ∨ i = 10 ∨ i = 11 ∨ i = 12 ∨ i = 13 ∨ i = 14 := by omega
    rcases this with rfl | rfl | rfl | rfl | rfl | rfl | rfl | rfl | rfl | rfl <;> simp [h]

/-- All kernel switches in terms of the flags. -/
theorem keepOf_iff (flags : Nat) :
    ((keepOf flags).above = true ↔ Wants flags 5) ∧ ((keepOf flags).below = true ↔ Wants flags 6) ∧ ((keepOf flags).partially = true ↔ Wants flags 7) ∧
    ((keepOf flags).sealedIn = true ↔ Wants flags 8) ∧ ((keepOf flags).sealedOut = true ↔ Wants flags 9) ∧ ((keepOf flags).unsealed = true ↔ Wants flags 10) ∧
    ((keepOf flags).patchIn = true ↔ Wants flags 11) ∧ ((keepOf flags).patchOut = true ↔ Wants flags 12) ∧
    ((keepOf flags).seamSrc = true ↔ Wants flags 13) ∧ ((keepOf flags).seamCut = true ↔ Wants flags 14) := by
  unfold keepOf Wants
  by_cases h : has flags filterMask = true
  · have hf := (has_filter flags).1 h
    rw [if_pos h]
    simp only [fAbove, fBelow, fLocUndefined, fSealIn, fSealOut, fSealNone, fPatchIn, fPatchOut, fSeamSrc, fSeamCut, has_bit, hf, true_implies]
    simp
  · have hf : ¬ Filtering flags := fun hh => h ((has_filter flags).2 hh)
    rw [if_neg h]
    simp [hf]

theorem byFragLoc_perm {α : Type} (l : List (FragLoc × α)) : (byFragLoc l).Perm l := by
  unfold byFragLoc
  induction l with
  | nil => simp
  | cons x l ih =>
    obtain ⟨loc, a⟩ := x
    cases loc
    · simpa using ih
    · simp only [List.filter_cons, decide_eq_true_eq, reduceCtorEq, if_false, if_true, List.append_assoc, List.cons_append]
      rw [List.append_assoc] at ih
      exact (List.perm_middle).trans (List.Perm.cons _ ih)
    · simp only [List.filter_cons, decide_eq_true_eq, reduceCtorEq, if_false, if_true]
      exact (List.perm_middle).trans (List.Perm.cons _ ih)

theorem byPatchLoc_perm {α : Type} (l : List (FragLoc × PatchLoc × α)) : (byPatchLoc l).Perm l := by
  unfold byPatchLoc
  induction l with
  | nil => simp
  | cons x l ih =>
    obtain ⟨f, loc, a⟩ := x
    cases loc
    · simpa using ih
    · simp only [List.filter_cons, decide_eq_true_eq, reduceCtorEq, if_false, if_true, List.append_assoc, List.cons_append]
      rw [List.append_assoc] at ih
      exact (List.perm_middle).trans (List.Perm.cons _ ih)
    · simp only [List.filter_cons, decide_eq_true_eq, reduceCtorEq, if_false, if_true]
      exact (List.perm_middle).trans (List.Perm.cons _ ih)

theorem keepLoc_iff (flags : Nat) (l : FragLoc) : keepLoc (keepOf flags) l = true ↔ Wants flags l.bit := by
  have K := keepOf_iff flags
  cases l
  · exact K.1
  · exact K.2.1
  · exact K.2.2.1

open Classical in
/-- Sealed fragments: kept are exactly those whose location flag and whose sealing flag are wanted. -/
theorem C39_sealed (flags : Nat) (c : Cand D) (hc : c.Sound) :
    (emit (keepOf flags) c).sealedFrags.Perm (c.sealedFrags.filter (fun x => Wants flags x.1.bit ∧ Wants flags x.2.1.sealBit)) := by
  obtain ⟨ka, kb, kp, ksi, kso, ku, kpi, kpo, -, -⟩ := keepOf_iff flags
  have hfilter : c.sealedFrags.filter (fun x => keepLoc (keepOf flags) x.1 && keepColour (keepOf flags) x.2.1) =
      c.sealedFrags.filter (fun x => Wants flags x.1.bit ∧ Wants flags x.2.1.sealBit) := by
    apply List.filter_congr
    rintro ⟨l, p, d⟩ hx
    rw [Bool.eq_iff_iff, Bool.and_eq_true, decide_eq_true_eq, keepLoc_iff]
    refine and_congr_right (fun _ => ?_)
    cases p with
    | inside => exact ksi
    | outside => exact kso
    | undefined => exact absurd rfl (hc.sealing _ hx)
  have hnone : ¬ ((keepOf flags).sealedIn = true ∨ (keepOf flags).sealedOut = true) →
      c.sealedFrags.filter (fun x => Wants flags x.1.bit ∧ Wants flags x.2.1.sealBit) = [] := by
    intro hn
    rw [List.filter_eq_nil_iff]
    rintro ⟨l, p, d⟩ hx
    rw [decide_eq_true_eq]
    rintro ⟨-, h⟩
    cases p with
    | inside => exact hn (.inl (ksi.2 h))
    | outside => exact hn (.inr (kso.2 h))
    | undefined => exact hc.sealing _ hx rfl
  unfold emit
  dsimp only
  by_cases hs : (keepOf flags).sealedIn = true ∨ (keepOf flags).sealedOut = true
  · have h1 : (!((keepOf flags).below || (keepOf flags).above || (keepOf flags).partially || (keepOf flags).unsealed || (keepOf flags).sealedIn || (keepOf flags).sealedOut ||
        (keepOf flags).patchIn || (keepOf flags).patchOut)) = false := by rcases hs with h | h <;> simp [h]
    have h2 : (!((keepOf flags).below || (keepOf flags).above || (keepOf flags).sealedIn || (keepOf flags).sealedOut || (keepOf flags).patchIn || (keepOf flags).patchOut)) = false := by
      rcases hs with h | h <;> simp [h]
    have h3 : (!((keepOf flags).below || (keepOf flags).above || (keepOf flags).partially || (keepOf flags).sealedIn || (keepOf flags).sealedOut)) = false := by
      rcases hs with h | h <;> simp [h]
    have h4 : ((keepOf flags).sealedIn || (keepOf flags).sealedOut) = true := by rcases hs with h | h <;> simp [h]
    rw [h1, h2, h3, h4]
    simp only [Bool.false_eq_true, if_false, if_true]
    cases hf : c.fills with
    | false =>
      simp only [if_true, (hc.fills hf).2, List.filter_nil]
      split <;> exact List.Perm.refl _
    | true =>
      simp only [Bool.true_eq_false, if_false]
      rw [← hfilter]
      exact (byFragLoc_perm _).trans (byPatchLoc_perm _)
  · rw [hnone hs]
    have h4 : ((keepOf flags).sealedIn || (keepOf flags).sealedOut) = false := by
      simp only [not_or, Bool.not_eq_true] at hs
      simp [hs.1, hs.2]
    rw [h4]
    simp only [Bool.false_eq_true, if_false]
    split
    · exact List.Perm.refl _
    · split
      · split <;> exact List.Perm.refl _
      · split
        · split <;> exact List.Perm.refl _
        · split <;> split <;> exact List.Perm.refl _

/-- Unsealed fragments: kept are exactly those whose location flag is wanted, if MC_DISPATCH_FILTER_FRAGMENT_SEALING_NONE or
MC_DISPATCH_FILTER_FRAGMENT_LOCATION_UNDEFINED is wanted. -/
theorem C39_unsealed_partial [∀ f b, Decidable (Wants f b)] (flags : Nat) (c : Cand D) :
    (emit (keepOf flags) c).unsealed.Perm (c.unsealed.filter (fun x => Wants flags x.1.bit ∧ (Wants flags 10 ∨ Wants flags 7))) := by
  obtain ⟨ka, kb, kp, ksi, kso, ku, kpi, kpo, -, -⟩ := keepOf_iff flags
  have hu : (emit (keepOf flags) c).unsealed = if ((keepOf flags).unsealed || (keepOf flags).partially) = true then byFragLoc (c.unsealed.filter (fun x => keepLoc (keepOf flags) x.1)) else [] := by
    unfold emit
    dsimp only
    by_cases h : ((keepOf flags).unsealed || (keepOf flags).partially) = true
    · have h1 : (!((keepOf flags).below || (keepOf flags).above || (keepOf flags).partially || (keepOf flags).unsealed || (keepOf flags).sealedIn || (keepOf flags).sealedOut ||
        (keepOf flags).patchIn || (keepOf flags).patchOut)) = false := by
        rcases Bool.or_eq_true _ _ ▸ h with h | h <;> simp [h]
      rw [h1, if_pos h, if_pos h]
      simp only [Bool.false_eq_true, if_false]
      split
      · rfl
      · split
        · rfl
        · split
          · rfl
          · split <;> rfl
    · rw [if_neg h, if_neg h]
      split
      · rfl
      · split
        · rfl
        · split
          · rfl
          · split
            · rfl
            · split <;> rfl
  rw [hu]
  by_cases h : ((keepOf flags).unsealed || (keepOf flags).partially) = true
  · rw [if_pos h]
    refine (byFragLoc_perm _).trans (List.Perm.of_eq (List.filter_congr ?_))
    intro x _
    rw [Bool.eq_iff_iff, keepLoc_iff, decide_eq_true_eq]
    rw [Bool.or_eq_true, ku, kp] at h
    exact ⟨fun hh => ⟨hh, h⟩, fun hh => hh.1⟩
  · rw [if_neg h]
    rw [Bool.or_eq_true, ku, kp] at h
    rw [List.filter_eq_nil_iff.2]
    intro x _
    rw [decide_eq_true_eq]
    exact fun hh => h hh.2

/-- Patches: exactly those whose flag is wanted, each with its location. -/
theorem C39_patches [∀ f b, Decidable (Wants f b)] (flags : Nat) (c : Cand D) (hc : c.Sound) :
    (emit (keepOf flags) c).inside = ((c.patches.filter (fun x => x.1 = .inside)).filter (fun x => Wants flags x.1.bit)).map (fun x => x.2) ∧
    (emit (keepOf flags) c).outside = ((c.patches.filter (fun x => x.1 = .outside)).filter (fun x => Wants flags x.1.bit)).map (fun x => x.2) := by
  obtain ⟨ka, kb, kp, ksi, kso, ku, kpi, kpo, -, -⟩ := keepOf_iff flags
  have hin : ((c.patches.filter (fun x => keepPatch (keepOf flags) x.1)).filter (fun x => x.1 = .inside)) = (c.patches.filter (fun x => x.1 = .inside)).filter (fun x => Wants flags x.1.bit) := by
    rw [List.filter_filter, List.filter_filter]
    apply List.filter_congr
    rintro ⟨p, d⟩ hx
    rw [Bool.eq_iff_iff]
    simp only [Bool.and_eq_true, decide_eq_true_eq]
    cases p with
    | inside => simp only [keepPatch, PatchLoc.bit, kpi, and_comm]
    | outside => simp
    | undefined => simp
  have hout : ((c.patches.filter (fun x => keepPatch (keepOf flags) x.1)).filter (fun x => x.1 ≠ .inside)) = (c.patches.filter (fun x => x.1 = .outside)).filter (fun x => Wants flags x.1.bit) := by
    rw [List.filter_filter, List.filter_filter]
    apply List.filter_congr
    rintro ⟨p, d⟩ hx
    rw [Bool.eq_iff_iff]
    simp only [Bool.and_eq_true, decide_eq_true_eq]
    cases p with
    | inside => simp
    | outside => simp only [keepPatch, PatchLoc.bit, kpo]; simp
    | undefined => exact absurd rfl (hc.patches _ hx)
  have key : ((emit (keepOf flags) c).inside = (((c.patches.filter (fun x => keepPatch (keepOf flags) x.1)).filter (fun x => x.1 = .inside)).map (fun x => x.2)) ∧
      (emit (keepOf flags) c).outside = (((c.patches.filter (fun x => keepPatch (keepOf flags) x.1)).filter (fun x => x.1 ≠ .inside)).map (fun x => x.2))) := by
    have hnil : ∀ k, ((keepOf flags).patchIn = false ∧ (keepOf flags).patchOut = false) ∨ c.patches = [] →
        (((c.patches.filter (fun x => keepPatch (keepOf flags) x.1)).filter (fun x => x.1 = .inside)).map (fun x => x.2)) = [] ∧
        (((c.patches.filter (fun x => keepPatch (keepOf flags) x.1)).filter (fun x => x.1 ≠ .inside)).map (fun x => x.2)) = [] ∨ k = false := by
      intro k h
      left
      have : c.patches.filter (fun x => keepPatch (keepOf flags) x.1) = [] := by
        rcases h with ⟨h1, h2⟩ | h
        · rw [List.filter_eq_nil_iff]
          rintro ⟨p, d⟩ hx
          cases p with
          | inside => simp [keepPatch, h1]
          | outside => simp [keepPatch, h2]
          | undefined => exact absurd rfl (hc.patches _ hx)
        · rw [h]; rfl
      rw [this]; simp
    have hnil' := fun h => (hnil true h).resolve_right (by simp)
    unfold emit
    dsimp only
    split
    · next h =>
      simp only [Bool.not_eq_true', Bool.or_eq_false_iff] at h
      have := hnil' (.inl ⟨h.1.2, h.2⟩)
      exact ⟨this.1.symm, this.2.symm⟩
    · split
      · next h =>
        have := hnil' (.inr (hc.fills h).1)
        split <;> exact ⟨this.1.symm, this.2.symm⟩
      · split
        · next h =>
          simp only [Bool.not_eq_true', Bool.or_eq_false_iff] at h
          have := hnil' (.inl ⟨h.1.2, h.2⟩)
          split <;> exact ⟨this.1.symm, this.2.symm⟩
        · split
          · exact ⟨rfl, rfl⟩
          · split <;> exact ⟨rfl, rfl⟩
  rw [key.1, key.2, hin, hout]
  exact ⟨rfl, rfl⟩

/-- Seams: kept exactly if their flag is wanted. -/
theorem C39_seams [∀ f b, Decidable (Wants f b)] (flags : Nat) (c : Cand D) :
    (emit (keepOf flags) c).seamSrc = (if Wants flags 13 then c.seamSrc else none) ∧ (emit (keepOf flags) c).seamCut = (if Wants flags 14 then c.seamCut else none) := by
  obtain ⟨-, -, -, -, -, -, -, -, k1, k2⟩ := keepOf_iff flags
  simp only [← k1, ← k2]
  unfold emit
  dsimp only
  split
  · exact ⟨rfl, rfl⟩
  · split
    · split <;> exact ⟨rfl, rfl⟩
    · split
      · split <;> exact ⟨rfl, rfl⟩
      · split
        · split <;> exact ⟨rfl, rfl⟩
        · split <;> split <;> exact ⟨rfl, rfl⟩

/-- Without any filter flag everything that the kernel finds is kept. -/
theorem C39_no_filter (flags : Nat) (hf : ¬ Filtering flags) (c : Cand D) (hc : c.Sound) :
    (emit (keepOf flags) c).sealedFrags.Perm c.sealedFrags ∧ (emit (keepOf flags) c).unsealed.Perm c.unsealed ∧
    (emit (keepOf flags) c).seamSrc = c.seamSrc ∧ (emit (keepOf flags) c).seamCut = c.seamCut ∧
    (emit (keepOf flags) c).inside = (c.patches.filter (fun x => x.1 = .inside)).map (fun x => x.2) ∧
    (emit (keepOf flags) c).outside = (c.patches.filter (fun x => x.1 = .outside)).map (fun x => x.2) := by
  classical
  have hw : ∀ b, Wants flags b := fun b h => absurd h hf
  have h1 := C39_sealed flags c hc
  have h2 := C39_unsealed_partial flags c
  have h3 := C39_patches flags c hc
  have h4 := C39_seams flags c
  simp only [hw, and_self, or_self, decide_true, if_true] at h1 h2 h3 h4
  rw [List.filter_true] at h1 h2
  refine ⟨h1, h2, h4.1, h4.2, ?_, ?_⟩
  · rw [h3.1, List.filter_true]
  · rw [h3.2, List.filter_true]

/-! ## What goes wrong -/

/-- An unsealed fragment above and one below, and a sealed one. -/
def exCand : Cand Nat := ⟨some (1, 5), none, [(.below, 2), (.above, 3), (.undefined, 8)], true, [(.inside, 4), (.outside, 5)], [(.above, .inside, 6), (.below, .outside, 7)]⟩

/-- The claim for unsealed fragments is false: with the flags for location above, location undefined and inside sealing, an unsealed fragment is kept although
MC_DISPATCH_FILTER_FRAGMENT_SEALING_NONE is not set. -/
theorem C39_unsealed_fails : ∃ flags : Nat, Filtering flags ∧ ¬ Wants flags 10 ∧ (FragLoc.above, 3) ∈ (emit (keepOf flags) exCand).unsealed := by
  refine ⟨2 ^ 5 + 2 ^ 7 + 2 ^ 8, ⟨5, by decide, by decide, by decide⟩, fun h => ?_, by decide⟩
  have := h ⟨5, by decide, by decide, by decide⟩
  revert this; decide

/-- The flag for unsealed fragments alone keeps no fragment at all (a location flag is needed as well). -/
theorem C39_sealing_none_alone : (emit (keepOf (2 ^ 10)) exCand).unsealed = [] := by decide

/-! ## Examples -/

example : exCand.Sound := ⟨by decide, by decide, by decide⟩
example : (emit (keepOf (2 ^ 5 + 2 ^ 8)) exCand).sealedFrags = [(.above, .inside, 6)] := by decide
example : (emit (keepOf 0) exCand).unsealed = [(.above, 3), (.below, 2), (.undefined, 8)] := by decide
example : (emit (keepOf (2 ^ 11)) exCand).inside = [4] ∧ (emit (keepOf (2 ^ 11)) exCand).outside = [] := by decide

end Mcut.Dispatch
