import Verif.Model.Version
/-! # C02: version number packing is lossless and monotone -/
namespace Mcut.Version

/-- The packed word as a number: the three fields occupy disjoint bit ranges. -/
theorem make_toNat (a b c : BitVec 32) (ha : a.toNat < 2 ^ 10) (hb : b.toNat < 2 ^ 10)
    (hc : c.toNat < 2 ^ 12) :
    (make a b c).toNat = a.toNat * 2 ^ 22 + b.toNat * 2 ^ 12 + c.toNat := by
  unfold make
  rw [BitVec.toNat_or, BitVec.toNat_or, BitVec.toNat_shiftLeft, BitVec.toNat_shiftLeft]
  have h1 : a.toNat <<< 22 % 2 ^ 32 = a.toNat <<< 22 := by
    apply Nat.mod_eq_of_lt; rw [Nat.shiftLeft_eq]; omega
  have h2 : b.toNat <<< 12 % 2 ^ 32 = b.toNat <<< 12 := by
    apply Nat.mod_eq_of_lt; rw [Nat.shiftLeft_eq]; omega
  rw [h1, h2]
  have e1 : a.toNat <<< 22 ||| b.toNat <<< 12 = a.toNat <<< 22 + b.toNat <<< 12 :=
    (Nat.shiftLeft_add_eq_or_of_lt (by rw [Nat.shiftLeft_eq]; omega) _).symm
  rw [e1]
  have e2 : a.toNat <<< 22 + b.toNat <<< 12 = (a.toNat * 2 ^ 10 + b.toNat) <<< 12 := by
    simp only [Nat.shiftLeft_eq]; omega
  rw [e2, ← Nat.shiftLeft_add_eq_or_of_lt hc]
  simp only [Nat.shiftLeft_eq]; omega

/-- **C02 (round trip).** For components that fit their fields (10, 10 and 12 bits) the decode macros
recover exactly what was packed. -/
theorem C02_roundtrip (a b c : BitVec 32) (ha : a.toNat < 2 ^ 10) (hb : b.toNat < 2 ^ 10)
    (hc : c.toNat < 2 ^ 12) :
    major (make a b c) = a ∧ minor (make a b c) = b ∧ patch (make a b c) = c := by
  have h := make_toNat a b c ha hb hc
  refine ⟨?_, ?_, ?_⟩ <;> apply BitVec.eq_of_toNat_eq
  · unfold major
    rw [BitVec.toNat_ushiftRight, h, Nat.shiftRight_eq_div_pow]; omega
  · unfold minor
    rw [BitVec.toNat_and, BitVec.toNat_ushiftRight, h, Nat.shiftRight_eq_div_pow]
    have : (0x3ff#32).toNat = 2 ^ 10 - 1 := by decide
    rw [this, Nat.and_two_pow_sub_one_eq_mod]; omega
  · unfold patch
    rw [BitVec.toNat_and, h]
    have : (0xfff#32).toNat = 2 ^ 12 - 1 := by decide
    rw [this, Nat.and_two_pow_sub_one_eq_mod]; omega

/-- Lexicographic order on version triples, independent of the packing. -/
def LexLt (a b c a' b' c' : Nat) : Prop :=
  a < a' ∨ (a = a' ∧ (b < b' ∨ (b = b' ∧ c < c')))

/-- **C02 (monotone).** Packed versions compare (as unsigned numbers) exactly as the version triples
compare lexicographically. -/
theorem C02_monotone (a b c a' b' c' : BitVec 32)
    (ha : a.toNat < 2 ^ 10) (hb : b.toNat < 2 ^ 10) (hc : c.toNat < 2 ^ 12)
    (ha' : a'.toNat < 2 ^ 10) (hb' : b'.toNat < 2 ^ 10) (hc' : c'.toNat < 2 ^ 12) :
    (make a b c).toNat < (make a' b' c').toNat ↔
      LexLt a.toNat b.toNat c.toNat a'.toNat b'.toNat c'.toNat := by
  rw [make_toNat a b c ha hb hc, make_toNat a' b' c' ha' hb' hc']
  unfold LexLt; omega

/-- **C02 (converse round trip).** Every 32-bit version word is the packing of its decoded parts. -/
theorem C02_decode_encode (v : BitVec 32) : make (major v) (minor v) (patch v) = v := by
  have hv := v.isLt
  have h1 : (major v).toNat = v.toNat / 2 ^ 22 := by
    unfold major; rw [BitVec.toNat_ushiftRight, Nat.shiftRight_eq_div_pow]
  have h2 : (minor v).toNat = v.toNat / 2 ^ 12 % 2 ^ 10 := by
    unfold minor
    rw [BitVec.toNat_and, BitVec.toNat_ushiftRight, Nat.shiftRight_eq_div_pow]
    have : (0x3ff#32).toNat = 2 ^ 10 - 1 := by decide
    rw [this, Nat.and_two_pow_sub_one_eq_mod]
  have h3 : (patch v).toNat = v.toNat % 2 ^ 12 := by
    unfold patch
    rw [BitVec.toNat_and]
    have : (0xfff#32).toNat = 2 ^ 12 - 1 := by decide
    rw [this, Nat.and_two_pow_sub_one_eq_mod]
  apply BitVec.eq_of_toNat_eq
  rw [make_toNat _ _ _ (by omega) (by omega) (by omega)]
  omega

-- non-vacuity: the header's own version 1.2.100 (include/mcut/mcut.h:85) meets the hypotheses
example : (1#32).toNat < 2 ^ 10 ∧ (2#32).toNat < 2 ^ 10 ∧ (100#32).toNat < 2 ^ 12 ∧
    make 1 2 100 = 4202596#32 ∧ major (make 1 2 100) = 1 := by decide
example : LexLt 1 1 4095 1 2 0 ∧ (make 1 1 4095).toNat < (make 1 2 0).toNat := by
  unfold LexLt; decide

end Mcut.Version
