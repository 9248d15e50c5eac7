import Verif.Model.Release
import Verif.Spec.C28

/-!
# C28: release calls free exactly the named objects
-/
namespace Mcut.Release

theorem named_succ (p : Nat → Nat) (k : Nat) : named p (k + 1) = named p k ++ [p k] := by
  simp [named, List.range_succ]

theorem mem_without {table hs : List Nat} {x : Nat} : x ∈ without table hs ↔ x ∈ table ∧ x ∉ hs := by
  simp [without]

theorem without_snoc (table hs : List Nat) (h : Nat) :
    (without table hs).filter (fun x => x ≠ h) = without table (hs ++ [h]) := by
  simp only [without, List.filter_filter]
  apply List.filter_congr
  intro x _
  simp [not_or, and_comm]

theorem releasable_snoc (table hs : List Nat) (h : Nat) :
    Releasable table (hs ++ [h]) ↔ Releasable table hs ∧ h ∈ table ∧ h ∉ hs := by
  unfold Releasable
  simp only [List.nodup_append, List.mem_append, List.mem_singleton, List.nodup_cons, List.not_mem_nil, not_false_eq_true,
    List.nodup_nil, and_true, true_and]
  constructor
  · rintro ⟨⟨h1, h2⟩, h3⟩
    exact ⟨⟨h1, fun x hx => h3 x (Or.inl hx)⟩, h3 h (Or.inr rfl), fun hm => h2 h hm h rfl rfl⟩
  · rintro ⟨⟨h1, h2⟩, h3, h4⟩
    refine ⟨⟨h1, ?_⟩, ?_⟩
    · rintro a ha b rfl rfl; exact h4 ha
    · rintro x (hx | rfl)
      · exact h2 x hx
      · exact h3

/-- A prefix of releasable handles is releasable. -/
theorem Releasable.prefix {table : List Nat} {p : Nat → Nat} {n : Nat} (h : Releasable table (named p n)) (k : Nat) (hk : k ≤ n) :
    Releasable table (named p k) := by
  induction n with
  | zero => have : k = 0 := by omega
            subst this; exact h
  | succ n ih =>
    rw [named_succ, releasable_snoc] at h
    by_cases hkn : k = n + 1
    · subst hkn; rw [named_succ, releasable_snoc]; exact h
    · exact ih h.1 (by omega)

theorem events_loop (t : Tables) (p : Nat → Nat) (n r : Nat) (i : Nat) (hi : i + r = n) (hrel : Releasable t.evs (named p i)) :
    ∃ k c, Outcome t.evs p n k c ∧
      ((c = NO_ERROR ∧ releaseEventsLoop p { t with evs := without t.evs (named p i) } i r =
          .ok { t with evs := without t.evs (named p k) }) ∨
       (c = INVALID_VALUE ∧ releaseEventsLoop p { t with evs := without t.evs (named p i) } i r =
          .throws { t with evs := without t.evs (named p k) } .invalidArgument)) := by
  induction r generalizing i with
  | zero =>
    have : i = n := by omega
    subst this
    exact ⟨i, NO_ERROR, ⟨Nat.le_refl _, hrel, by simp [hrel], fun _ => rfl, fun h => absurd rfl h⟩, Or.inl ⟨rfl, rfl⟩⟩
  | succ r ih =>
    by_cases hm : p i ∈ without t.evs (named p i)
    · have hm' := mem_without.1 hm
      have hrel' : Releasable t.evs (named p (i + 1)) := by
        rw [named_succ, releasable_snoc]; exact ⟨hrel, hm'.1, hm'.2⟩
      obtain ⟨k, c, ho, hc⟩ := ih (i + 1) (by omega) hrel'
      refine ⟨k, c, ho, ?_⟩
      have hl : releaseEventsLoop p { t with evs := without t.evs (named p i) } i (r + 1) =
          releaseEventsLoop p { t with evs := without t.evs (named p (i + 1)) } (i + 1) r := by
        simp only [releaseEventsLoop, releaseEvent, hm, if_true]
        rw [without_snoc, ← named_succ]
      rw [hl]; exact hc
    · have hm' : p i ∉ t.evs ∨ p i ∈ named p i := by
        by_cases h1 : p i ∈ t.evs
        · exact Or.inr (Classical.byContradiction fun h2 => hm (mem_without.2 ⟨h1, h2⟩))
        · exact Or.inl h1
      refine ⟨i, INVALID_VALUE, ⟨by omega, hrel, ⟨fun h => by simp at h, fun h => ?_⟩, fun h => by simp at h,
        fun _ => ⟨rfl, by omega, hm'⟩⟩, Or.inr ⟨rfl, ?_⟩⟩
      · have := h.prefix (i + 1) (by omega)
        rw [named_succ, releasable_snoc] at this
        rcases hm' with h' | h'
        · exact absurd this.2.1 h'
        · exact absurd h' this.2.2
      · simp only [releaseEventsLoop, releaseEvent, hm, if_false]

/-- `mcReleaseEvents` with `n > 0` handles: it succeeds iff all of them exist and none is named twice; then exactly they are gone. Otherwise it
returns MC_INVALID_VALUE, and exactly the events named before the first unknown one are gone. Nothing else changes. -/
theorem C28_events (t : Tables) (n : Nat) (p : Nat → Nat) (hn : 0 < n) :
    ∃ k r, Outcome t.evs p n k r ∧ mcReleaseEvents t n (some p) = .ret { t with evs := without t.evs (named p k) } r := by
  have h0 : { t with evs := without t.evs (named p 0) } = t := by
    have : without t.evs (named p 0) = t.evs := by simp [without, named]
    rw [this]
  obtain ⟨k, c, ho, hc⟩ := events_loop t p n n 0 (by omega) (by simp [named, Releasable])
  rw [h0] at hc
  refine ⟨k, c, ho, ?_⟩
  have hne : n ≠ 0 := by omega
  rcases hc with ⟨rfl, hc⟩ | ⟨rfl, hc⟩ <;>
    simp [mcReleaseEvents, api, hc, hne, code]

/-- Contradictory arguments: a count without an array, or an array without a count. -/
theorem C28_events_rejects (t : Tables) (n : Nat) (p : Option (Nat → Nat)) (h : (0 < n ∧ p = none) ∨ (n = 0 ∧ p ≠ none)) :
    mcReleaseEvents t n p = .ret t INVALID_VALUE := by
  rcases h with ⟨h, rfl⟩ | ⟨rfl, h⟩
  · simp [mcReleaseEvents, api, h]
  · cases p with
    | none => exact absurd rfl h
    | some p => simp [mcReleaseEvents, api]

theorem components_loop (t : Tables) (c : Nat) (p : Nat → Nat) (n r : Nat) (i : Nat) (hi : i + r = n) (hrel : Releasable (t.ccs c) (named p i)) :
    ∃ k e, Outcome (t.ccs c) p n k e ∧
      ((e = NO_ERROR ∧ releaseComponentsLoop c p { t with ccs := upd t.ccs c (without (t.ccs c) (named p i)) } i r =
          .ok { t with ccs := upd t.ccs c (without (t.ccs c) (named p k)) }) ∨
       (e = INVALID_VALUE ∧ releaseComponentsLoop c p { t with ccs := upd t.ccs c (without (t.ccs c) (named p i)) } i r =
          .throws { t with ccs := upd t.ccs c (without (t.ccs c) (named p k)) } .invalidArgument)) := by
  induction r generalizing i with
  | zero =>
    have : i = n := by omega
    subst this
    exact ⟨i, NO_ERROR, ⟨Nat.le_refl _, hrel, by simp [hrel], fun _ => rfl, fun h => absurd rfl h⟩, Or.inl ⟨rfl, rfl⟩⟩
  | succ r ih =>
    have hget : ∀ l, upd t.ccs c l c = l := fun l => upd_same _ _ _
    have hupd : ∀ l l', upd (upd t.ccs c l) c l' = upd t.ccs c l' := by
      intro l l'; funext x; simp only [upd]; split <;> rfl
    by_cases hm : p i ∈ without (t.ccs c) (named p i)
    · have hm' := mem_without.1 hm
      have hrel' : Releasable (t.ccs c) (named p (i + 1)) := by
        rw [named_succ, releasable_snoc]; exact ⟨hrel, hm'.1, hm'.2⟩
      obtain ⟨k, e, ho, hc⟩ := ih (i + 1) (by omega) hrel'
      refine ⟨k, e, ho, ?_⟩
      have hl : releaseComponentsLoop c p { t with ccs := upd t.ccs c (without (t.ccs c) (named p i)) } i (r + 1) =
          releaseComponentsLoop c p { t with ccs := upd t.ccs c (without (t.ccs c) (named p (i + 1))) } (i + 1) r := by
        simp only [releaseComponentsLoop, releaseComponent, hget, hm, if_true, hupd]
        rw [without_snoc, ← named_succ]
      rw [hl]; exact hc
    · have hm' : p i ∉ t.ccs c ∨ p i ∈ named p i := by
        by_cases h1 : p i ∈ t.ccs c
        · exact Or.inr (Classical.byContradiction fun h2 => hm (mem_without.2 ⟨h1, h2⟩))
        · exact Or.inl h1
      refine ⟨i, INVALID_VALUE, ⟨by omega, hrel, ⟨fun h => by simp at h, fun h => ?_⟩, fun h => by simp at h,
        fun _ => ⟨rfl, by omega, hm'⟩⟩, Or.inr ⟨rfl, ?_⟩⟩
      · have := h.prefix (i + 1) (by omega)
        rw [named_succ, releasable_snoc] at this
        rcases hm' with h' | h'
        · exact absurd this.2.1 h'
        · exact absurd h' this.2.2
      · simp only [releaseComponentsLoop, releaseComponent, hget, hm, if_false]

/-- `mcReleaseConnectedComponents` with `0 < n < 2^31` handles, on a live context: succeeds iff all of them are components of that context and none
is named twice; then exactly they are gone from it. Otherwise MC_INVALID_VALUE, and exactly the ones named before the first
unknown one are gone. Components of other contexts, contexts and events are untouched. -/
theorem C28_components_partial (t : Tables) (c n : Nat) (p : Nat → Nat) (h0 : c ≠ 0) (hc : c ∈ t.ctxs) (hn : 0 < n) (hlim : n < 2 ^ 31) :
    ∃ k r, Outcome (t.ccs c) p n k r ∧ ∃ ccs', mcReleaseConnectedComponents t c n (some p) = .ret { t with ccs := ccs' } r ∧
      ccs' c = without (t.ccs c) (named p k) ∧ ∀ c', c' ≠ c → ccs' c' = t.ccs c' := by
  have hz : { t with ccs := upd t.ccs c (without (t.ccs c) (named p 0)) } = t := by
    have : without (t.ccs c) (named p 0) = t.ccs c := by simp [without, named]
    rw [this]
    have : upd t.ccs c (t.ccs c) = t.ccs := by funext x; simp only [upd]; split <;> simp_all
    rw [this]
  obtain ⟨k, e, ho, hl⟩ := components_loop t c p n n 0 (by omega) (by simp [named, Releasable])
  rw [hz] at hl
  refine ⟨k, e, ho, _, ?_, upd_same _ c _, fun c' hne => upd_other _ _ _ _ hne⟩
  have hne : n ≠ 0 := by omega
  rcases hl with ⟨rfl, hl⟩ | ⟨rfl, hl⟩ <;>
    simp [mcReleaseConnectedComponents, api, releaseComponentsImpl, rounds, hlim, hl, h0, hc, hne, code]

/-- A count of zero with a null array releases all components of the context, and nothing else. -/
theorem C28_all_components (t : Tables) (c : Nat) (h0 : c ≠ 0) (hc : c ∈ t.ctxs) :
    ∃ ccs', mcReleaseConnectedComponents t c 0 none = .ret { t with ccs := ccs' } NO_ERROR ∧
      ccs' c = [] ∧ ∀ c', c' ≠ c → ccs' c' = t.ccs c' :=
  ⟨upd t.ccs c [], by simp [mcReleaseConnectedComponents, api, releaseComponentsImpl, h0, hc], upd_same _ _ _, fun c' h => upd_other _ _ _ _ h⟩

/-- An unknown context or contradictory arguments: MC_INVALID_VALUE and no change. -/
theorem C28_components_rejects (t : Tables) (c n : Nat) (p : Option (Nat → Nat))
    (h : c = 0 ∨ c ∉ t.ctxs ∨ (0 < n ∧ p = none) ∨ (n = 0 ∧ p ≠ none)) :
    mcReleaseConnectedComponents t c n p = .ret t INVALID_VALUE := by
  unfold mcReleaseConnectedComponents api
  split
  · rfl
  · rename_i hck
    simp at hck
    obtain ⟨hc0, h1, h2⟩ := hck
    have hc : c ∉ t.ctxs := by
      rcases h with h | h | ⟨h, rfl⟩ | ⟨rfl, h⟩
      · exact absurd h hc0
      · exact h
      · exact absurd (h1 h) (by simp)
      · exact absurd (h2 rfl) h
    simp [releaseComponentsImpl, hc, code]

/-- The bound of C28_components_partial is needed: `(int)numConnComps` is negative from 2^31 on, the loop does not run, nothing is released and
the call reports success. -/
theorem C28_huge_count_fails : ∃ (t : Tables) (c n : Nat) (p : Nat → Nat), n < 2 ^ 32 ∧ c ∈ t.ctxs ∧
    (∃ i < n, p i ∉ t.ccs c) ∧ t.ccs c ≠ [] ∧ mcReleaseConnectedComponents t c n (some p) = .ret t NO_ERROR :=
  ⟨⟨[7], [], fun _ => [8]⟩, 7, 2 ^ 31, fun _ => 9, by decide, by decide, ⟨0, by decide, by decide⟩, by decide, by
    simp [mcReleaseConnectedComponents, api, releaseComponentsImpl, rounds, releaseComponentsLoop]⟩

/-- `mcReleaseContext`: succeeds iff the context exists; then it and its components are gone, other contexts with their components and all events
are untouched. Otherwise MC_INVALID_VALUE and no change. -/
theorem C28_context (t : Tables) (c : Nat) (h0 : c ≠ 0) :
    (c ∈ t.ctxs → ∃ ccs', mcReleaseContext t c = .ret { t with ctxs := without t.ctxs [c], ccs := ccs' } NO_ERROR ∧
      ccs' c = [] ∧ ∀ c', c' ≠ c → ccs' c' = t.ccs c') ∧
    (c ∉ t.ctxs → mcReleaseContext t c = .ret t INVALID_VALUE) := by
  refine ⟨fun hc => ⟨upd t.ccs c [], ?_, upd_same _ _ _, fun c' h => upd_other _ _ _ _ h⟩, fun hc => ?_⟩
  · have : without t.ctxs [c] = t.ctxs.filter (fun x => x ≠ c) := by simp [without]
    rw [this]; simp [mcReleaseContext, api, h0, hc]
  · simp [mcReleaseContext, api, h0, hc, code]

/-- A released event is not found by a later release call. -/
theorem C28_released_not_found (t t' : Tables) (n m : Nat) (p q : Nat → Nat) (hn : 0 < n) (hm : 0 < m)
    (h : mcReleaseEvents t n (some p) = .ret t' NO_ERROR) (hq : ∃ i < m, ∃ j < n, q i = p j) :
    ∃ t'', mcReleaseEvents t' m (some q) = .ret t'' INVALID_VALUE := by
  obtain ⟨k, r, ho, he⟩ := C28_events t n p hn
  rw [h] at he; cases he
  have hk := ho.all rfl; subst hk
  obtain ⟨k', r', ho', he'⟩ := C28_events { t with evs := without t.evs (named p k) } m q hm
  have : r' ≠ NO_ERROR := by
    intro hr
    obtain ⟨i, hi, j, hj, hij⟩ := hq
    have := ((ho'.ok_iff).1 hr).2 (q i) (List.mem_map.2 ⟨i, List.mem_range.2 hi, rfl⟩)
    exact (mem_without.1 this).2 (hij ▸ List.mem_map.2 ⟨j, List.mem_range.2 hj, rfl⟩)
  rw [(ho'.error this).1] at he'
  exact ⟨_, he'⟩

/-- Three events of which two are released, then an unknown one in the middle of the list. -/
example : mcReleaseEvents ⟨[5], [1, 2, 3], fun _ => []⟩ 2 (some fun i => i + 2) = .ret ⟨[5], [1], fun _ => []⟩ NO_ERROR := by
  simp [mcReleaseEvents, api, releaseEventsLoop, releaseEvent]
example : mcReleaseEvents ⟨[5], [1, 2, 3], fun _ => []⟩ 3 (some fun i => [2, 9, 3].getD i 0) = .ret ⟨[5], [1, 3], fun _ => []⟩ INVALID_VALUE := by
  simp [mcReleaseEvents, api, releaseEventsLoop, releaseEvent, code]

end Mcut.Release
