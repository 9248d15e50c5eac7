import Mathlib.Data.Rat.Floor

/-!
# Morton codes (source/bvh.cpp:192-214)
-/
namespace Mcut.Morton

/-- `expandBits` — source/bvh.cpp:193-200: 32-bit unsigned arithmetic. -/
def expandBits (v : Nat) : Nat :=
  let v := ((v * 0x00010001) % 2 ^ 32) &&& 0xFF0000FF
  let v := ((v * 0x00000101) % 2 ^ 32) &&& 0x0F00F00F
  let v := ((v * 0x00000011) % 2 ^ 32) &&& 0xC30C30C3
  let v := ((v * 0x00000005) % 2 ^ 32) &&& 0x49249249
  v

/-- A float value: NaN, an infinity or a finite number. -/
inductive FVal
  | nan
  | ninf
  | pinf
  | fin (q : ℚ)

/-- The clamp and conversion of one coordinate — source/bvh.cpp:205-211: `(unsigned)fmin(fmax(x * 1024.0f, 0.0f), 1023.0f)`. `fmax(NaN, 0)` is 0.
The product is taken as exact (multiplication by a power of two; only results above 1023 could overflow, and those are clamped). -/
def quantise : FVal → Nat
  | .nan => 0
  | .ninf => 0
  | .pinf => 1023
  | .fin q => (⌊min (max (q * 1024) 0) 1023⌋).toNat

/-- The combination — source/bvh.cpp:213. -/
def mortonCode (x y z : Nat) : Nat := (expandBits x * 4 + expandBits y * 2 + expandBits z) % 2 ^ 32

/-- `morton3D` — source/bvh.cpp:203-214. -/
def morton3D (x y z : FVal) : Nat := mortonCode (quantise x) (quantise y) (quantise z)

end Mcut.Morton
