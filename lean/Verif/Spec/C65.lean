import Verif.Spec.C62
import Verif.Spec.C58

/-! Specification notions used in the statements of `Props/C65.lean`. -/
namespace Mcut.Geom
variable {K : Type*} [Field K] [LinearOrder K]

/-- Spec: the results of testing some edges against one face (`l` the length of its normal). -/
def Tests (vs : List (V3 K)) (l : K) (edges : List (V3 K × V3 K)) (rs : List (Option (TestResult K))) : Prop :=
  List.Forall₂ (fun e r => EdgeFace vs l e.1 e.2 r) edges rs

/-- The registered point, if any. -/
def registered (r : Option (TestResult K)) : Option (V3 K) :=
  match r with
  | some (.point p) => some p
  | _ => none

/-- Spec: the points registered by some tests, in order. -/
def points (rs : List (Option (TestResult K))) : List (V3 K) := rs.filterMap registered

/-- Spec: the triangle can be tested: it is proper, `l` is the length of its normal, the projection is not singular (C58). -/
structure Testable (a b c : V3 K) (l : K) : Prop where
  proper : NotCollinear3 a b c
  length : IsLength (planeCoefficients [a, b, c]).1 l
  regular : ¬ Singular (planeCoefficients [a, b, c]).1 (planeCoefficients [a, b, c]).2.2

end Mcut.Geom
