/-! Specification of inclusive prefix sums of 32-bit words, independent of the code. -/
namespace Mcut.Spec

/-- The (wrapping) sum of a list of words. -/
def total (xs : List (BitVec 32)) : BitVec 32 := xs.foldr (· + ·) 0#32

/-- Entry `k` is the sum of the entries `0..k`. -/
def prefixSums (xs : List (BitVec 32)) : List (BitVec 32) :=
  (List.range xs.length).map (fun k => total (xs.take (k + 1)))

end Mcut.Spec
