import Verif.Spec.C03

/-! Helper lemmas for `Props/C03.lean`. -/
namespace Mcut.Ctx


theorem and_one_shl_ne (v : Word) (n : Nat) (h : n < 32) : (v &&& (1#32 <<< n) ≠ 0) ↔ v.getLsbD n = true := by
  constructor
  · intro hne
    cases hb : v.getLsbD n with
    | true => rfl
    | false =>
      exfalso; apply hne
      apply BitVec.eq_of_getLsbD_eq
      intro i hi
      simp only [BitVec.getLsbD_and, BitVec.getLsbD_shiftLeft]
      by_cases hin : i = n
      · subst hin; simp [hb]
      · by_cases hlt : i < n
        · simp [hlt]
        · have : i - n ≠ 0 := by omega
          simp [this]
  · intro hb h0
    have := congrArg (fun w => BitVec.getLsbD w n) h0
    rw [BitVec.getLsbD_and, hb, BitVec.getLsbD_shiftLeft] at this
    simp [h] at this

theorem getLsbD_setBit (v : Word) (n i : Nat) (hi : i < 32) :
    (setBit v n).getLsbD i = (v.getLsbD i || decide (i = n)) := by
  simp only [setBit, BitVec.getLsbD_or, BitVec.getLsbD_shiftLeft]
  congr 1
  by_cases hin : i = n
  · subst hin; simp [hi]
  · by_cases hlt : i < n
    · simp [hlt]; omega
    · have : i - n ≠ 0 := by omega
      simp [this, hin]

theorem getLsbD_clearBit (v : Word) (n i : Nat) (hi : i < 32) :
    (clearBit v n).getLsbD i = (v.getLsbD i && !decide (i = n)) := by
  simp only [clearBit, BitVec.getLsbD_and, BitVec.truncate_eq_setWidth, BitVec.getLsbD_setWidth, BitVec.getLsbD_not,
    BitVec.getLsbD_shiftLeft]
  congr 1
  have h64 : i < 64 := by omega
  by_cases hin : i = n
  · subst hin; simp [hi, h64]
  · by_cases hlt : i < n
    · simp [hlt, hi, h64]; omega
    · have : i - n ≠ 0 := by omega
      simp [this, hin, hi, h64]

theorem and_neg_self (v : Word) (k : Nat) (hk : k < 32) (hb : v.getLsbD k = true)
    (hl : ∀ j < k, v.getLsbD j = false) : v &&& -v = 1#32 <<< k := by
  apply BitVec.eq_of_getLsbD_eq
  intro i hi
  simp only [BitVec.getLsbD_and, BitVec.getLsbD_neg, BitVec.getLsbD_shiftLeft, hi, decide_true, Bool.true_and]
  by_cases hik : i = k
  · subst hik
    have : ¬ ∃ j < i, v.getLsbD j = true := by
      rintro ⟨j, hj, h⟩; rw [hl j hj] at h; exact absurd h (by simp)
    simp [hb, this]
  · by_cases hlt : i < k
    · simp [hl i hlt, hlt]
    · have h1 : i - k ≠ 0 := by omega
      have : ∃ j < i, v.getLsbD j = true := ⟨k, by omega, hb⟩
      simp [h1, hlt, this]

theorem exists_low_bit (v : Word) (hv : v ≠ 0) :
    ∃ k, k < 32 ∧ v.getLsbD k = true ∧ ∀ j < k, v.getLsbD j = false := by
  have hex : ∃ k, v.getLsbD k = true := by
    apply Classical.byContradiction
    intro hne
    apply hv
    apply BitVec.eq_of_getLsbD_eq
    intro i _
    show v.getLsbD i = (0#32).getLsbD i
    rw [BitVec.getLsbD_zero]
    cases h : v.getLsbD i with
    | false => rfl
    | true => exact absurd ⟨i, h⟩ hne
  obtain ⟨k, hk⟩ := hex
  induction k using Nat.strongRecOn with
  | _ k ih =>
    by_cases h : ∃ j < k, v.getLsbD j = true
    · obtain ⟨j, hj, hj'⟩ := h; exact ih j hj hj'
    · refine ⟨k, ?_, hk, ?_⟩
      · apply Classical.byContradiction; intro hge
        rw [BitVec.getLsbD_of_ge v k (by omega)] at hk; simp at hk
      · intro j hj
        cases hb : v.getLsbD j with
        | false => rfl
        | true => exact absurd ⟨j, hj, hb⟩ h

theorem log2_one_shl (k : Nat) (hk : k < 32) : Nat.log2 (1#32 <<< k).toNat = k := by
  have : (1#32 <<< k).toNat = 2 ^ k := by
    simp only [BitVec.toNat_shiftLeft, BitVec.toNat_ofNat, Nat.shiftLeft_eq]
    have : 2 ^ k < 2 ^ 32 := Nat.pow_lt_pow_right (by omega) hk
    simp
    exact this
  rw [this]; exact Nat.log2_two_pow

theorem one_shl_ne_zero (k : Nat) (hk : k < 32) : 1#32 <<< k ≠ 0 := by
  intro h
  have := congrArg (fun w => BitVec.getLsbD w k) h
  simp [hk] at this

theorem control_foldl (param all : Word) (enabled : Bool) (ns : List Nat) (f : Word)
    (hns : ∀ n ∈ ns, n < 32 ∧ trailingZeroes (all &&& (1#32 <<< n)) = n) (i : Nat) (hi : i < 32) :
    (controlLoop f param all enabled (ns.map (fun n => 1#32 <<< n))).getLsbD i =
      if i ∈ ns ∧ param.getLsbD i = true then enabled else f.getLsbD i := by
  induction ns generalizing f with
  | nil => simp [controlLoop]
  | cons n ns ih =>
    have hn := hns n (by simp)
    have hrec := fun f => ih f (fun m hm => hns m (by simp [hm]))
    simp only [controlLoop, List.map_cons, List.foldl_cons] at hrec ⊢
    rw [hrec]
    simp only [hn.2, Int.toNat_natCast]
    by_cases hp : param &&& (1#32 <<< n) ≠ 0
    · have hpb := (and_one_shl_ne param n hn.1).1 hp
      rw [if_pos hp]
      by_cases hin : i = n
      · subst hin
        cases enabled <;> simp [hpb, getLsbD_setBit _ _ _ hi, getLsbD_clearBit _ _ _ hi]
      · cases enabled <;> simp [hin, getLsbD_setBit _ _ _ hi, getLsbD_clearBit _ _ _ hi]
    · rw [if_neg hp]
      have hpb : param.getLsbD n ≠ true := fun h => hp ((and_one_shl_ne param n hn.1).2 h)
      by_cases hin : i = n
      · subst hin; simp [hpb]
      · simp [hin]

theorem tz_all (n : Nat) (hn : n < 32) : trailingZeroes (0xFFFFFFFF#32 &&& (1#32 <<< n)) = n := by
  have h1 : (0xFFFFFFFF#32 &&& (1#32 <<< n)) = 1#32 <<< n := by
    apply BitVec.eq_of_getLsbD_eq
    intro i hi
    have : (0xFFFFFFFF#32).getLsbD i = true := by
      have : (0xFFFFFFFF#32) = BitVec.allOnes 32 := by decide
      rw [this, BitVec.getLsbD_allOnes]; simp [hi]
    simp [this]
  rw [h1]
  have hneg := and_neg_self (1#32 <<< n) n hn (by simp [BitVec.getLsbD_shiftLeft, hn])
    (by intro j hj; simp [BitVec.getLsbD_shiftLeft, hj])
  simp only [trailingZeroes, hneg, floatExponentField, one_shl_ne_zero n hn, if_false, log2_one_shl n hn]
  omega

theorem fSource_control (c : Ctx) (s t v : Word) (e : Bool) (i : Nat) (hi : i < 32) :
    (debugMessageControlImpl c s t v e).fSource.getLsbD i =
      if i < 2 ∧ s.getLsbD i = true then e else c.fSource.getLsbD i := by
  have h := control_foldl s SOURCE_ALL e [0, 1] c.fSource (fun n hn => ⟨by simp at hn; omega, tz_all n (by simp at hn; omega)⟩) i hi
  have hm : i ∈ [0, 1] ↔ i < 2 := by simp; omega
  simp only [hm] at h
  exact h

theorem fType_control (c : Ctx) (s t v : Word) (e : Bool) (i : Nat) (hi : i < 32) :
    (debugMessageControlImpl c s t v e).fType.getLsbD i =
      if i < 3 ∧ t.getLsbD i = true then e else c.fType.getLsbD i := by
  have h := control_foldl t TYPE_ALL e [1, 0, 2] c.fType (fun n hn => ⟨by simp at hn; omega, tz_all n (by simp at hn; omega)⟩) i hi
  have hm : i ∈ [1, 0, 2] ↔ i < 3 := by simp; omega
  simp only [hm] at h
  exact h

theorem fSeverity_control (c : Ctx) (s t v : Word) (e : Bool) (i : Nat) (hi : i < 32) :
    (debugMessageControlImpl c s t v e).fSeverity.getLsbD i =
      if i < 4 ∧ v.getLsbD i = true then e else c.fSeverity.getLsbD i := by
  have h := control_foldl v SEVERITY_ALL e [0, 2, 1, 3] c.fSeverity (fun n hn => ⟨by simp at hn; omega, tz_all n (by simp at hn; omega)⟩) i hi
  have hm : i ∈ [0, 2, 1, 3] ↔ i < 4 := by simp; omega
  simp only [hm] at h
  exact h

theorem control_cases (c : Ctx) (s t v : Word) (e : Bool) :
    mcDebugMessageControl c s t v e =
      if Accepted s t v then (debugMessageControlImpl c s t v e, .noError) else (c, .invalidValue) := by
  unfold mcDebugMessageControl
  by_cases h1 : s = SOURCE_ALL ∨ s = SOURCE_KERNEL ∨ s = SOURCE_ALL
  · have h1' : s = SOURCE_ALL ∨ s = SOURCE_KERNEL := by rcases h1 with h | h | h <;> simp [h]
    by_cases h2 : t = TYPE_ALL ∨ t = TYPE_DEPRECATED ∨ t = TYPE_ERROR ∨ t = TYPE_OTHER
    · have h2' : t = TYPE_ALL ∨ t = TYPE_ERROR ∨ t = TYPE_DEPRECATED ∨ t = TYPE_OTHER := by
        rcases h2 with h | h | h | h <;> simp [h]
      by_cases h3 : v = SEVERITY_HIGH ∨ v = SEVERITY_MEDIUM ∨ v = SEVERITY_LOW ∨ v = SEVERITY_NOTIFICATION ∨
          v = SEVERITY_ALL
      · have h3' : v = SEVERITY_ALL ∨ v = SEVERITY_HIGH ∨ v = SEVERITY_MEDIUM ∨ v = SEVERITY_LOW ∨
            v = SEVERITY_NOTIFICATION := by rcases h3 with h | h | h | h | h <;> simp [h]
        rw [if_neg (not_not_intro h1), if_neg (not_not_intro h2), if_neg (not_not_intro h3), if_pos ⟨h1', h2', h3'⟩]
      · rw [if_neg (not_not_intro h1), if_neg (not_not_intro h2), if_pos h3, if_neg]
        rintro ⟨-, -, h⟩; apply h3; rcases h with h | h | h | h | h <;> simp [h]
    · rw [if_neg (not_not_intro h1), if_pos h2, if_neg]
      rintro ⟨-, h, -⟩; apply h2; rcases h with h | h | h | h <;> simp [h]
  · rw [if_pos h1, if_neg]
    rintro ⟨h, -, -⟩; apply h1; rcases h with h | h <;> simp [h]

theorem dbgCb_filters (c : Ctx) (m : Msg) :
    (dbgCb c m).fSource = c.fSource ∧ (dbgCb c m).fType = c.fType ∧ (dbgCb c m).fSeverity = c.fSeverity ∧
    (dbgCb c m).flags = c.flags ∧ (dbgCb c m).callback = c.callback ∧ (dbgCb c m).gpConstant = c.gpConstant ∧
    (dbgCb c m).gpAttempts = c.gpAttempts ∧ (dbgCb c m).winding = c.winding ∧
    (dbgCb c m).intersectionType = c.intersectionType := by
  unfold dbgCb
  simp only
  split
  · split
    · split <;> simp
    · simp
  · simp

theorem bind_filters (c : Ctx) (i : Word) (b : Nat) (p : Option (List Byte)) :
    (mcBindState c i b p).1.fSource = c.fSource ∧ (mcBindState c i b p).1.fType = c.fType ∧
    (mcBindState c i b p).1.fSeverity = c.fSeverity ∧ (mcBindState c i b p).1.flags = c.flags ∧
    (mcBindState c i b p).1.callback = c.callback ∧
    (mcBindState c i b p).1.intersectionType = c.intersectionType := by
  have hd := dbgCb_filters c
  unfold mcBindState bindStateImpl
  simp only
  repeat' split
  all_goals simp [hd]

theorem getLog_filters (c : Ctx) (n b : Nat) (l f : Bool) :
    (mcGetDebugMessageLog c n b l f).1.fSource = c.fSource ∧ (mcGetDebugMessageLog c n b l f).1.fType = c.fType ∧
    (mcGetDebugMessageLog c n b l f).1.fSeverity = c.fSeverity ∧ (mcGetDebugMessageLog c n b l f).1.flags = c.flags ∧
    (mcGetDebugMessageLog c n b l f).1.callback = c.callback ∧
    (mcGetDebugMessageLog c n b l f).1.intersectionType = c.intersectionType := by
  have hd := dbgCb_filters c
  unfold mcGetDebugMessageLog getDebugMessageLogImpl
  simp only
  repeat' split
  all_goals simp [hd]

/-- Every step moves a filter bit only as `says` prescribes. -/
theorem step_bits (c : Ctx) (o : Op) (i : Nat) (hi : i < 32) :
    (step c o).1.fSource.getLsbD i = (says (fun a => a.1) 2 i o).getD (c.fSource.getLsbD i) ∧
    (step c o).1.fType.getLsbD i = (says (fun a => a.2.1) 3 i o).getD (c.fType.getLsbD i) ∧
    (step c o).1.fSeverity.getLsbD i = (says (fun a => a.2.2) 4 i o).getD (c.fSeverity.getLsbD i) := by
  cases o with
  | control s t v e =>
    simp only [step, control_cases, says]
    by_cases h : Accepted s t v
    · simp only [h, if_true, true_and, fSource_control _ _ _ _ _ _ hi, fType_control _ _ _ _ _ _ hi,
        fSeverity_control _ _ _ _ _ _ hi]
      refine ⟨?_, ?_, ?_⟩ <;> split <;> simp
    · simp [h]
  | setCallback cb => cases cb <;> simp [step, mcDebugMessageCallback, says]
  | emit m => simp [step, says, dbgCb_filters]
  | getLog => simp [step, says, getLog_filters]
  | getInfo => simp [step, says]
  | bind => simp [step, says, bind_filters]
  | storeIntersectionType => simp [step, says]

theorem getLast?_getD_cons {α : Type _} (o : Option α) (l : List α) (d : α) :
    ((o.toList ++ l).getLast?).getD d = (l.getLast?).getD (o.getD d) := by
  cases o with
  | none => simp
  | some a =>
    cases l with
    | nil => simp
    | cons b t => simp [List.getLast?_cons]

theorem filterMap_cons_toList {α β : Type _} (f : α → Option β) (a : α) (l : List α) :
    (a :: l).filterMap f = (f a).toList ++ l.filterMap f := by
  cases h : f a <;> simp [h]

end Mcut.Ctx
