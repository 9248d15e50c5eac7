import Verif.Lemmas.C05

/-!
# C05 — mcGetDebugMessageLog returns a maximal fitting prefix of the log and does not change it
-/
namespace Mcut.Ctx

/-- A call with a message buffer returns the longest prefix of the log that respects `count` and `bufSize`: the buffer holds exactly the
texts of those messages back to back (so nothing is written at or beyond `bufSize`), the parallel arrays describe them, and the context is
unchanged. (Logs of 2^32 or more messages are excluded: the code truncates the log size to 32 bits.)
Missing: the query with a null buffer is not covered, it can append to the log (C05_null_buffer_appends_fails). -/
theorem C05_prefix_partial (c : Ctx) (count bufSize : Nat) (hc : count ≠ 0) (hb : bufSize ≠ 0)
    (hlog : c.logs.length < 2 ^ 32) :
    ∃ n, (mcGetDebugMessageLog c count bufSize true true) =
        (c, ⟨.noError, some n, (c.logs.take n).flatMap (fun m => m.str), (c.logs.take n).map entry⟩) ∧
      n ≤ count ∧ n ≤ c.logs.length ∧ totalLen (c.logs.take n) ≤ bufSize ∧
      (n < count → n < c.logs.length → totalLen (c.logs.take (n + 1)) > bufSize) ∧
      (mcGetDebugMessageLog c count bufSize true true).2.buffer.length = totalLen (c.logs.take n) := by
  obtain ⟨k, h1, h2, h3, h4, h5⟩ := fetchLoop_spec bufSize (min count (c.logs.length % 2 ^ 32)) c.logs 0 [] []
  rw [Nat.mod_eq_of_lt hlog] at h1 h3 h5
  have heq : mcGetDebugMessageLog c count bufSize true true =
      (c, ⟨.noError, some k, (c.logs.take k).flatMap (fun m => m.str), (c.logs.take k).map entry⟩) := by
    simp only [mcGetDebugMessageLog, hc, hb, if_false, getDebugMessageLogImpl, Bool.true_eq_false, Nat.mod_eq_of_lt hlog, h3,
      List.nil_append]
    simp [List.length_map, List.length_take, Nat.min_eq_left h2]
  refine ⟨k, heq, by omega, h2, ?_, ?_, ?_⟩
  · have := h4 (by omega); omega
  · intro ha hb'
    have := h5 (by omega) hb'; omega
  · rw [heq]; simp [List.length_flatMap, totalLen]

/-- The call is repeatable: it can be issued any number of times with the same answer. -/
theorem C05_repeatable (c : Ctx) (count bufSize : Nat) (numFetched : Bool) :
    (mcGetDebugMessageLog c count bufSize true numFetched).1 = c := by
  unfold mcGetDebugMessageLog getDebugMessageLogImpl
  simp only
  repeat' split
  all_goals simp_all

/-- With zero `count`, zero `bufSize` or no `numFetched` the call fails and nothing changes. -/
theorem C05_rejects (c : Ctx) (count bufSize : Nat) (messageLog numFetched : Bool)
    (h : count = 0 ∨ bufSize = 0 ∨ numFetched = false) :
    mcGetDebugMessageLog c count bufSize messageLog numFetched = (c, ⟨.invalidValue, none, [], []⟩) := by
  unfold mcGetDebugMessageLog
  by_cases h1 : count = 0
  · simp [h1]
  · by_cases h2 : bufSize = 0
    · simp [h1, h2]
    · have : numFetched = false := by simpa [h1, h2] using h
      simp [h1, h2, this]

/-- With a null `messageLog` the log itself can change: the query is reported as a debug notification, which is appended to the
log when notifications are enabled and there is no callback. -/
theorem C05_null_buffer_appends_fails :
    ∃ c : Ctx, (∃ ops, c = run (Ctx.create MC_DEBUG) ops) ∧
      (mcGetDebugMessageLog c 1 1 false true).1.logs ≠ c.logs := by
  refine ⟨run (Ctx.create MC_DEBUG) [.control SOURCE_ALL TYPE_ALL SEVERITY_ALL true], ⟨_, rfl⟩, by decide⟩

/-- Non-vacuity: three logged messages of lengths 2, 3, 1 and a buffer of 5 characters: two messages come back. -/
example :
    let m (s : String) : Msg := ⟨SOURCE_KERNEL, TYPE_OTHER, SEVERITY_LOW, ascii s⟩
    let c := run (Ctx.create MC_DEBUG) [.control SOURCE_ALL TYPE_ALL SEVERITY_ALL true,
      .emit (m "ab"), .emit (m "cde"), .emit (m "f")]
    (mcGetDebugMessageLog c 9 5 true true).2.numFetched = some 2 ∧
    (mcGetDebugMessageLog c 9 5 true true).2.buffer = ascii "abcde" := by decide

end Mcut.Ctx
