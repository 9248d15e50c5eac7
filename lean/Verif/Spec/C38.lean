import Verif.Model.Dispatch
import Verif.Spec.C33
import Verif.Spec.C34

/-! Specification notions used in the statements of `Props/C38.lean` and the other properties of a dispatch. -/
namespace Mcut.Dispatch
open Mcut.Hmesh Mcut.Preproc Mcut.Partition
variable {D : Type}

/-- Spec: arrays and coordinates have the announced lengths. -/
structure Client.Sized (c : Client) : Prop where
  src : c.src.WellSized
  cut : c.cut.WellSized
  srcPts : c.srcPts.length = c.src.numVertices
  cutPts : c.cutPts.length = c.cut.numVertices

/-- Spec: arrays that describe one connected polygon mesh. -/
structure GoodMesh (a : Arrays) : Prop where
  valid : ValidMesh a.numVertices a.faces
  three : 3 ≤ a.numVertices
  conn : ∀ u v, u < a.numVertices → v < a.numVertices → Relation.EqvGen (Side a.faces) u v

/-- Spec: how often the cut mesh has been perturbed after a series of answers of the kernel: every violation of general position asks for a perturbation; a
configuration without intersection does so from the third kernel call on. -/
def perturbations (as : List (Answer D Pt)) : Nat :=
  as.foldl (fun n a => match a with
    | .gpv => n + 1
    | .noIntersection => if 2 ≤ n then n + 1 else n
    | _ => n) 0

/-- Spec: the number of kernel runs that detected a floating polygon. -/
def floatings (as : List (Answer D Pt)) : Nat :=
  (as.filter (fun a => match a with
    | .floating _ => true
    | _ => false)).length

/-- Spec: the kernel calls of a finished dispatch. -/
def Step.calls : Step D → List Call
  | .ok s _ _ => s.calls
  | .err _ l => l
  | .again s => s.calls
  | .ub => []

/-- Spec: the length of the bounding box diagonal does not change when all points are moved by the same vector. -/
def Client.DiagInvariant (c : Client) : Prop := ∀ pts t, c.diag (pts.map (fun p => Pt.add p t)) = c.diag pts

/-- Spec: the size of perturbations: the constant, times the diagonal of the client's cut mesh if the perturbation is relative. -/
def Client.scale (c : Client) : ℚ := (if absoluteOf c.flags then 1 else c.diag c.cutPts) * c.constant

/-- Spec: what a kernel call may look like after `n` perturbations, with random numbers from `its`: the original vertices of the cut mesh are those of the
client, moved by the perturbation vector, which is zero if `n = 0`; otherwise it is a random vector times the scale. -/
structure CallOK (c : Client) (its : List (Iter D)) (n : Nat) (k : Call) : Prop where
  count : k.count = n
  bound : c.attempts < 2 ^ 31 → n ≤ c.attempts
  zero : n = 0 → k.pert = (0, 0, 0)
  cut : ∀ v p, c.cutPts[v]? = some p → k.cut.pos v = Pt.add p k.pert
  src : ∀ v p, c.srcPts[v]? = some p → k.src.pos v = p
  scaled : c.DiagInvariant → 0 < n → ∃ it ∈ its, k.pert = (it.rnd.1 * c.scale, it.rnd.2.1 * c.scale, it.rnd.2.2 * c.scale)

/-- Spec: the thread schedules of all readings of the arrays are possible. -/
def Possible (c : Client) (env : LoadEnv) (its : List (Iter D)) : Prop := LoadOk c.src env ∧ ∀ it ∈ its, LoadOk c.cut it.load

/-- Spec: what becomes of a dispatch. -/
inductive Verdict where
  | success
  | fails
deriving DecidableEq

/-- Spec: the verdict after `n` perturbations, given the answers to come (`none`: not decided yet). Floating polygons and kernel exceptions are not treated here.
The failure for too many perturbations is found when the loop is entered once more. -/
def verdict (enforce : Bool) (attempts : Nat) : Nat → List (Answer D Pt) → Option Verdict
  | _, [] => none
  | _, .found _ :: _ => some .success
  | n, .noIntersection :: as => if enforce = true ∧ 2 ≤ n then (if as = [] then none else if n = attempts then some .fails else verdict enforce attempts (n + 1) as) else some .success
  | n, .gpv :: as => if enforce = true then (if as = [] then none else if n = attempts then some .fails else verdict enforce attempts (n + 1) as) else some .fails
  | _, _ :: _ => some .fails

end Mcut.Dispatch
