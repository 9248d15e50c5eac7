import Verif.Props.C44

namespace Mcut.Params
open Mcut.Release (INVALID_VALUE)

theorem leBytes_holds (width value : Nat) : Holds (Mcut.Ctx.leBytes width value) width value := by
  induction width generalizing value with
  | zero => exact ⟨rfl, fun i h => absurd h (by omega)⟩
  | succ k ih =>
    obtain ⟨h1, h2⟩ := ih (value / 256)
    refine ⟨by simp [Mcut.Ctx.leBytes, h1], fun i hi => ?_⟩
    cases i with
    | zero => simp [Mcut.Ctx.leBytes]
    | succ i =>
      simp only [Mcut.Ctx.leBytes, List.getElem?_cons_succ]
      rw [h2 i (by omega), Nat.div_div_eq_div_mul, Nat.pow_succ, Nat.mul_comm 256]

theorem impl_some (e : EventData) (info : Word) (bytes : Nat) (mem nb : Bool) (width value : Nat) (h : valueOf e info = some (width, value)) :
    getEventInfoImpl (some e) info bytes mem nb = infoCase width value bytes mem nb := by
  have hw : ∀ n : Nat, info.toNat = n → info = BitVec.ofNat 32 n := fun n hn => by rw [← hn]; simp
  unfold valueOf at h
  split at h <;> first
    | (rename_i hi; cases h; have := hw _ hi; subst this; rfl)
    | cases h

theorem impl_none (e : EventData) (info : Word) (bytes : Nat) (mem nb : Bool) (h : valueOf e info = none) :
    getEventInfoImpl (some e) info bytes mem nb = .error INVALID_VALUE := by
  unfold valueOf at h
  split at h <;> try (cases h; done)
  rename_i h1 h2 h3 h4 h5 h6 h7
  have hne : ∀ k : Nat, info.toNat ≠ k → info ≠ BitVec.ofNat 32 k ∨ 2 ^ 32 ≤ k := by
    intro k hk
    by_cases hlt : k < 2 ^ 32
    · left; rintro rfl; exact hk (by simp [Nat.mod_eq_of_lt hlt])
    · right; omega
  have n1 := (hne 4 h1).resolve_right (by decide)
  have n2 := (hne 8 h2).resolve_right (by decide)
  have n3 := (hne 16 h3).resolve_right (by decide)
  have n4 := (hne 32 h4).resolve_right (by decide)
  have n5 := (hne 64 h5).resolve_right (by decide)
  have n6 := (hne 128 h6).resolve_right (by decide)
  have n7 := (hne 256 h7).resolve_right (by decide)
  simp only [getEventInfoImpl, EV_RUNTIME, EV_STATUS, EV_SUBMIT, EV_START, EV_END, EV_TYPE, EV_CONTEXT,
    show (1#32 <<< 2 : BitVec 32) = BitVec.ofNat 32 4 from rfl, show (1#32 <<< 3 : BitVec 32) = BitVec.ofNat 32 8 from rfl,
    show (1#32 <<< 4 : BitVec 32) = BitVec.ofNat 32 16 from rfl, show (1#32 <<< 5 : BitVec 32) = BitVec.ofNat 32 32 from rfl,
    show (1#32 <<< 6 : BitVec 32) = BitVec.ofNat 32 64 from rfl, show (1#32 <<< 7 : BitVec 32) = BitVec.ofNat 32 128 from rfl,
    show (1#32 <<< 8 : BitVec 32) = BitVec.ofNat 32 256 from rfl, if_neg n1, if_neg n2, if_neg n3, if_neg n4, if_neg n5, if_neg n6, if_neg n7]

theorem width_of_checked (e : EventData) (info : Word) (k : Nat) (h : checkedWidth info = some k) : ∃ v, valueOf e info = some (k, v) := by
  unfold checkedWidth at h
  split at h
  · rename_i hi; cases h
    rcases hi with rfl | rfl <;> exact ⟨_, rfl⟩
  · split at h
    · rename_i hi; cases h
      rcases hi with rfl | rfl | rfl <;> exact ⟨_, rfl⟩
    · cases h

/-- The checks of the entry point never refuse a size query or a buffer of exactly the right size. -/
theorem checks_pass (e : EventData) (ev : Nat) (info : Word) (bytes : Nat) (mem : Bool) (width value : Nat) (he : ev ≠ 0)
    (h : valueOf e info = some (width, value)) (hb : (mem = false ∧ bytes = 0) ∨ (mem = true ∧ bytes = width)) :
    ¬ (eventInfoChecks ev info bytes mem).any id = true := by
  rw [evinfo_bad]
  rintro (h' | ⟨h1, h2⟩ | ⟨h1, k, hk, hne⟩)
  · exact he h'
  · rcases hb with ⟨_, hb⟩ | ⟨hb, _⟩
    · omega
    · rw [h2] at hb; cases hb
  · obtain ⟨v, hv⟩ := width_of_checked e info k hk
    rw [hv] at h; cases h
    rcases hb with ⟨hb, _⟩ | ⟨_, hb⟩
    · rw [h1] at hb; cases hb
    · exact hne hb

/-- A size query (no buffer, a place for the size) of an existing event and a known `info` stores exactly the size of the value. -/
theorem C57_size (e : EventData) (ev : Nat) (info : Word) (width value : Nat) (he : ev ≠ 0) (h : valueOf e info = some (width, value)) :
    mcGetEventInfo ev (some e) info 0 false true = .size width := by
  unfold mcGetEventInfo
  rw [if_neg (checks_pass e ev info 0 false width value he h (Or.inl ⟨rfl, rfl⟩)), impl_some e info 0 false true width value h]
  rfl

/-- With a buffer of the size that the size query reports, the buffer holds exactly the value afterwards.
Missing: larger buffers (C57_overread_iff). -/
theorem C57_data_partial (e : EventData) (ev : Nat) (info : Word) (width value : Nat) (nb : Bool) (he : ev ≠ 0) (h : valueOf e info = some (width, value)) :
    ∃ bs, mcGetEventInfo ev (some e) info width true nb = .data bs ∧ Holds bs width value := by
  refine ⟨_, ?_, leBytes_holds width value⟩
  unfold mcGetEventInfo
  rw [if_neg (checks_pass e ev info width true width value he h (Or.inr ⟨rfl, rfl⟩)), impl_some e info width true nb width value h]
  simp [infoCase]

/-- Whatever the arguments: a successful call with a buffer fills exactly `bytes` bytes with the complete value asked for. -/
theorem C57_data_exact (e : Option EventData) (ev : Nat) (info : Word) (bytes : Nat) (mem nb : Bool) (bs : List (BitVec 8))
    (h : mcGetEventInfo ev e info bytes mem nb = .data bs) :
    ∃ e', e = some e' ∧ ∃ value, valueOf e' info = some (bytes, value) ∧ mem = true ∧ Holds bs bytes value := by
  unfold mcGetEventInfo at h
  split at h
  · cases h
  · cases e with
    | none => simp [getEventInfoImpl] at h
    | some e =>
      refine ⟨e, rfl, ?_⟩
      cases hv : valueOf e info with
      | none => rw [impl_none e info bytes mem nb hv] at h; cases h
      | some p =>
        obtain ⟨w, v⟩ := p
        rw [impl_some e info bytes mem nb w v hv] at h
        unfold infoCase at h
        split at h
        · split at h <;> cases h
        · split at h
          · cases h
          · split at h
            · cases h
            · rename_i h1 h2 h3
              have : bytes = w := by omega
              subst this
              cases h
              exact ⟨v, rfl, by simpa using h1, leBytes_holds bytes v⟩

/-- An unknown event, an unknown `info`, a length without a buffer, or a buffer that is too small: MC_INVALID_VALUE and nothing is written. -/
theorem C57_rejects (e : Option EventData) (ev : Nat) (info : Word) (bytes : Nat) (mem nb : Bool)
    (h : e = none ∨ ev = 0 ∨ (0 < bytes ∧ mem = false) ∨
      (∃ e', e = some e' ∧ (valueOf e' info = none ∨ ∃ w v, valueOf e' info = some (w, v) ∧ mem = true ∧ bytes < w))) :
    mcGetEventInfo ev e info bytes mem nb = .error (-4) := by
  unfold mcGetEventInfo
  split
  · rfl
  · rename_i hc
    rw [evinfo_bad] at hc
    rcases h with rfl | h | h | ⟨e', rfl, h | ⟨w, v, h, rfl, hlt⟩⟩
    · rfl
    · exact absurd (Or.inl h) hc
    · exact absurd (Or.inr (Or.inl h)) hc
    · exact impl_none e' info bytes mem nb h
    · rw [impl_some e' info bytes true nb w v h]
      simp [infoCase, hlt]

/-- Exactly when the call reads past its local variable (undefined behaviour): the command type (bit 8) or the context (bit 7) is asked for with a buffer
larger than the value — although the documentation allows "bytes must be >= size of the return type". The other five values refuse larger buffers. -/
theorem C57_overread_iff (e : EventData) (ev : Nat) (info : Word) (bytes : Nat) (mem nb : Bool) (k : Nat) (hk : 0 < k) :
    mcGetEventInfo ev (some e) info bytes mem nb = .overread k ↔
      ev ≠ 0 ∧ mem = true ∧ ((info = 256#32 ∧ bytes = 4 + k) ∨ (info = 128#32 ∧ bytes = 8 + k)) := by
  constructor
  · intro h
    unfold mcGetEventInfo at h
    split at h
    · cases h
    · rename_i hc
      rw [evinfo_bad] at hc
      simp only [not_or, not_and, not_exists] at hc
      cases hv : valueOf e info with
      | none => rw [impl_none e info bytes mem nb hv] at h; cases h
      | some p =>
        obtain ⟨w, v⟩ := p
        rw [impl_some e info bytes mem nb w v hv] at h
        unfold infoCase at h
        split at h
        · split at h <;> cases h
        · split at h
          · cases h
          · split at h
            · rename_i h1 h2 h3
              have hm : mem = true := by simpa using h1
              cases h
              refine ⟨hc.1, hm, ?_⟩
              have hcw := hc.2.2 hm
              have hwd : ∀ n : Nat, info.toNat = n → info = BitVec.ofNat 32 n := fun n hn => by rw [← hn]; simp
              unfold valueOf at hv
              split at hv <;> (try (cases hv; done)) <;> rename_i hi <;> have hi' := hwd _ hi <;> subst hi' <;> cases hv
              · exact absurd (by omega) (hcw 4 (by decide))
              · exact absurd (by omega) (hcw 8 (by decide))
              · exact absurd (by omega) (hcw 8 (by decide))
              · exact absurd (by omega) (hcw 8 (by decide))
              · exact absurd (by omega) (hcw 4 (by decide))
              · right; exact ⟨rfl, by omega⟩
              · left; exact ⟨rfl, by omega⟩
            · cases h
  · rintro ⟨he, rfl, ⟨rfl, rfl⟩ | ⟨rfl, rfl⟩⟩
    · have hc : ¬ (eventInfoChecks ev 256#32 (4 + k) true).any id = true := by
        rw [evinfo_bad]; simp [he, checkedWidth]
      unfold mcGetEventInfo
      rw [if_neg hc, impl_some e 256#32 (4 + k) true nb 4 e.commandType.toNat rfl]
      have h1 : ¬ (4 + k < 4) := by omega
      have h2 : 4 + k > 4 := by omega
      simp [infoCase, hk]
    · have hc : ¬ (eventInfoChecks ev 128#32 (8 + k) true).any id = true := by
        rw [evinfo_bad]; simp [he, checkedWidth]
      unfold mcGetEventInfo
      rw [if_neg hc, impl_some e 128#32 (8 + k) true nb 8 e.context.toNat rfl]
      simp [infoCase, hk]

/-- A size query without a place for the size is documented as MC_INVALID_VALUE, but stores through the null pointer. -/
theorem C57_null_size_fails (e : EventData) (ev : Nat) (info : Word) (width value : Nat) (he : ev ≠ 0) (h : valueOf e info = some (width, value)) :
    mcGetEventInfo ev (some e) info 0 false false = .nullStore := by
  unfold mcGetEventInfo
  rw [if_neg (checks_pass e ev info 0 false width value he h (Or.inl ⟨rfl, rfl⟩)), impl_some e info 0 false false width value h]
  rfl

/-- An event of a finished dispatch (its status is MC_COMPLETE, created by context 0xDECAF). -/
def demoEvent : EventData := ⟨0, 1, 2, 0xDECAF, 100, 200, 300⟩

/-- The hypotheses are met. -/
theorem C57_demo : valueOf demoEvent 16#32 = some (8, 200) ∧
    mcGetEventInfo 5 (some demoEvent) 16#32 8 true false = .data [200#8, 0#8, 0#8, 0#8, 0#8, 0#8, 0#8, 0#8] ∧
    mcGetEventInfo 5 (some demoEvent) 256#32 8 true false = .overread 4 := ⟨rfl, by decide, by decide⟩

end Mcut.Params
