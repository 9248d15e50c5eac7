import Verif.Lemmas.C07

/-!
# C07 — mcGetInfo never writes more than the caller's bytes
-/
namespace Mcut.Ctx

/-- A size query (null destination, a place for the size) reports exactly the size that a following call writes, and that call succeeds
and writes exactly that many bytes. -/
theorem C07_size_query (c : Ctx) (info : Word) (n : Nat) (h : infoSize info = some n) :
    mcGetInfo c info 0 false true = ⟨.noError, some n, [], false⟩ ∧
    (∀ q, (mcGetInfo c info n true q).result = .noError ∧ (mcGetInfo c info n true q).data.length = n ∧
      (mcGetInfo c info n true q).ub = false) := by
  obtain ⟨m0, m1, m2, m3, m4, m5, m6, m7, m8, m9, m10, m11, m12, m13, m14, m15, m16, m17, m18, m19⟩ := info_masks
  rcases infoSize_inv info n h with ⟨rfl, rfl⟩ | ⟨rfl, rfl⟩ | ⟨rfl, rfl⟩ | ⟨rfl, rfl⟩ | ⟨rfl, rfl⟩ <;>
    simp [mcGetInfo, getInfoImpl, sizeReply, leBytes_length, *]

/-- The amount written never depends on the caller's `bytes`: a successful call with a destination writes exactly the size of the queried
state, every other call writes nothing. So there is no overrun when `bytes` is at least that size. (Partial: smaller `bytes` are not
rejected, see `C07_overrun_fails`.) -/
theorem C07_no_overrun_partial (c : Ctx) (info : Word) (bytes : Nat) (pMem pNumBytes : Bool) :
    ((mcGetInfo c info bytes pMem pNumBytes).data = [] ∨
      (pMem = true ∧ infoSize info = some (mcGetInfo c info bytes pMem pNumBytes).data.length)) ∧
    (∀ n, infoSize info = some n → n ≤ bytes → (mcGetInfo c info bytes pMem pNumBytes).data.length ≤ bytes) ∧
    (infoSize info = none → (mcGetInfo c info bytes pMem pNumBytes).result = .invalidValue) := by
  obtain ⟨m0, m1, m2, m3, m4, m5, m6, m7, m8, m9, m10, m11, m12, m13, m14, m15, m16, m17, m18, m19⟩ := info_masks
  have key : (mcGetInfo c info bytes pMem pNumBytes).data = [] ∨
      (pMem = true ∧ infoSize info = some (mcGetInfo c info bytes pMem pNumBytes).data.length) := by
    cases hi : infoSize info with
    | none => left; rw [getInfo_none c info hi]; rfl
    | some n =>
      cases pMem with
      | false =>
        left
        unfold mcGetInfo
        split
        · rfl
        · split
          · rfl
          · split
            · rfl
            · rcases infoSize_inv info n hi with ⟨rfl, rfl⟩ | ⟨rfl, rfl⟩ | ⟨rfl, rfl⟩ | ⟨rfl, rfl⟩ | ⟨rfl, rfl⟩ <;>
                cases pNumBytes <;> simp [getInfoImpl, sizeReply, *]
      | true =>
        rcases infoSize_inv info n hi with ⟨rfl, rfl⟩ | ⟨rfl, rfl⟩ | ⟨rfl, rfl⟩ | ⟨rfl, rfl⟩ | ⟨rfl, rfl⟩
        · by_cases hb : bytes = 4
          · right; simp [mcGetInfo, getInfoImpl, leBytes_length, hb, *]
          · left; simp [mcGetInfo, invalid, hb, *]
        all_goals right; simp [mcGetInfo, getInfoImpl, leBytes_length, *]
  refine ⟨key, ?_, ?_⟩
  · intro n hn hle
    rcases key with h | ⟨-, h⟩
    · simp [h]
    · rw [hn] at h; simp only [Option.some.injEq] at h; omega
  · intro h; rw [getInfo_none c info h]; rfl

/-- For the context flags the announced size is enforced. -/
theorem C07_flags_exact (c : Ctx) (bytes : Nat) (pNumBytes : Bool) :
    (bytes = 4 ∧ mcGetInfo c CONTEXT_FLAGS bytes true pNumBytes = ⟨.noError, none, leBytes 4 c.flags.toNat, false⟩) ∨
    (bytes ≠ 4 ∧ mcGetInfo c CONTEXT_FLAGS bytes true pNumBytes = invalid) := by
  have m0 := info_masks.1
  by_cases hb : bytes = 4
  · left; simp [mcGetInfo, getInfoImpl, hb, m0]
  · right; simp [mcGetInfo, hb, m0]

/-- For every other queryable state a too small (even empty) destination is overrun by a call reporting success. -/
theorem C07_overrun_fails (c : Ctx) (info : Word) (n : Nat) (h : infoSize info = some n) (hne : info ≠ CONTEXT_FLAGS)
    (bytes : Nat) (hlt : bytes < n) (q : Bool) :
    (mcGetInfo c info bytes true q).result = .noError ∧ (mcGetInfo c info bytes true q).data.length > bytes := by
  obtain ⟨m0, m1, m2, m3, m4, m5, m6, m7, m8, m9, m10, m11, m12, m13, m14, m15, m16, m17, m18, m19⟩ := info_masks
  rcases infoSize_inv info n h with ⟨rfl, rfl⟩ | ⟨rfl, rfl⟩ | ⟨rfl, rfl⟩ | ⟨rfl, rfl⟩ | ⟨rfl, rfl⟩
  · exact absurd rfl hne
  all_goals simp [mcGetInfo, getInfoImpl, leBytes_length, *]

/-- With both pointers null (documented as "ignored") the call writes through a null pointer. -/
theorem C07_null_size_pointer_fails (c : Ctx) (info : Word) (n : Nat) (h : infoSize info = some n) :
    (mcGetInfo c info 0 false false).ub = true := by
  obtain ⟨m0, m1, m2, m3, m4, m5, m6, m7, m8, m9, m10, m11, m12, m13, m14, m15, m16, m17, m18, m19⟩ := info_masks
  rcases infoSize_inv info n h with ⟨rfl, rfl⟩ | ⟨rfl, rfl⟩ | ⟨rfl, rfl⟩ | ⟨rfl, rfl⟩ | ⟨rfl, rfl⟩ <;>
    simp [mcGetInfo, getInfoImpl, sizeReply, *]

/-- MC_CONTEXT_MAX_DEBUG_MESSAGE_LENGTH is the length of the longest logged message: an upper bound for all and attained (or 0). Hence a buffer of
`count * max` characters always suffices for `count` messages. -/
theorem C07_max_message_length (c : Ctx) (bytes : Nat) (q : Bool) :
    ∃ n, (mcGetInfo c MAX_DEBUG_MESSAGE_LENGTH bytes true q).data = leBytes 8 n ∧
      (∀ m ∈ c.logs, m.str.length ≤ n) ∧ (n = 0 ∨ ∃ m ∈ c.logs, n = m.str.length) := by
  obtain ⟨m0, m1, m2, m3, m4, m5, m6, m7, m8, m9, m10, m11, m12, m13, m14, m15, m16, m17, m18, m19⟩ := info_masks
  refine ⟨c.logs.foldl (fun m x => max m x.str.length) 0, by simp [mcGetInfo, getInfoImpl, *], (foldl_max_le c.logs 0).2,
    foldl_max_mem c.logs 0⟩

/-- Non-vacuity. -/
example : infoSize GP_CONSTANT = some 8 ∧ infoSize WINDING_ORDER = none ∧
    (mcGetInfo (Ctx.create 5#32) CONTEXT_FLAGS 4 true false).data = [5#8, 0, 0, 0] ∧
    (mcGetInfo (Ctx.create 5#32) GP_ATTEMPTS 1 true false).data.length = 4 := by decide

end Mcut.Ctx
