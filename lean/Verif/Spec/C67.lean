import Verif.Model.CutPaths
import Verif.Spec.C63

/-! Specification notions used in the statements of `Props/C67.lean`. -/
namespace Mcut.CutPaths

/-- Spec: edge `e` joins `v` and `w`. -/
def JoinsV (ends : Nat → Nat × Nat) (e v w : Nat) : Prop := ends e = (v, w) ∨ ends e = (w, v)

/-- Spec: the number of edges with an end in `v`. -/
def degree (ends : Nat → Nat × Nat) (edges : List Nat) (v : Nat) : Nat := edges.countP (fun e => (ends e).1 == v || (ends e).2 == v)

/-- Spec: the edges form separate paths and loops: no edge has equal ends, and a point has at most two edges. -/
structure Curves (ends : Nat → Nat × Nat) (edges : List Nat) : Prop where
  nodup : edges.Nodup
  noLoop : ∀ e ∈ edges, (ends e).1 ≠ (ends e).2
  degree : ∀ v, degree ends edges v ≤ 2

/-- Spec: `p 0, p 1, …` are the points along the edges of `seq`; all but the last are different. -/
structure Along (ends : Nat → Nat × Nat) (seq : List Nat) (p : Nat → Nat) : Prop where
  joins : ∀ i e, seq[i]? = some e → JoinsV ends e (p i) (p (i + 1))
  distinct : ∀ i j, i < j → j < seq.length → p i ≠ p j

/-- Spec: a path between two different points, which have no other edge; no point between them has an edge that is not in the path. -/
def PathBetween (ends : Nat → Nat × Nat) (edges seq : List Nat) (v w : Nat) : Prop :=
  seq ≠ [] ∧ ∃ p, Along ends seq p ∧ p 0 = v ∧ p seq.length = w ∧ (∀ i, i < seq.length → p i ≠ w) ∧ degree ends edges v = 1 ∧ degree ends edges w = 1 ∧
    ∀ i, 0 < i → i < seq.length → degree ends edges (p i) = 2

/-- Spec: a path. -/
def IsPath (ends : Nat → Nat × Nat) (edges seq : List Nat) : Prop := ∃ v w, PathBetween ends edges seq v w

/-- Spec: a closed loop whose points have no other edges. -/
def IsLoop (ends : Nat → Nat × Nat) (edges seq : List Nat) : Prop :=
  seq ≠ [] ∧ ∃ p, Along ends seq p ∧ p seq.length = p 0 ∧ ∀ i, i < seq.length → degree ends edges (p i) = 2

/-- Spec: the sequences are the paths and loops of the graph: every edge is in exactly one, once, and edges that meet are in the same. -/
structure Sequences (ends : Nat → Nat × Nat) (edges : List Nat) (seqs : List (List Nat)) : Prop where
  partition : seqs.flatten.Perm edges
  shape : ∀ seq ∈ seqs, IsPath ends edges seq ∨ IsLoop ends edges seq
  whole : ∀ seq ∈ seqs, ∀ e ∈ seq, ∀ e' ∈ edges, ∀ v, ((ends e).1 = v ∨ (ends e).2 = v) → ((ends e').1 = v ∨ (ends e').2 = v) → e' ∈ seq

/-- Spec: the ends of the edges of a mesh. -/
def endsOf {P : Type} (m : Hmesh.Mesh P) (e : Nat) : Nat × Nat := (m.edgeVertex e 0, m.edgeVertex e 1)

/-- Spec: point `v` is the point where edge `x` pierces some face. -/
def PointOf (reg : List (Nat × Nat)) (base v x : Nat) : Prop := ∃ f, base ≤ v ∧ reg[v - base]? = some (x, f)

/-- Spec: edge `e` belongs to the source mesh (the faces before `smF`). -/
def SourceEdge {P : Type} (ps : Hmesh.Mesh P) (smF e : Nat) : Prop := ∃ g, Registry.OnEdge ps e g ∧ g < smF

/-- Spec: the kind of a path from `v` to `w`: its end points lie on border edges; it makes a hole if both of these belong to the cut mesh, and severs the source mesh if both
belong to the source mesh. -/
def PathKind {P : Type} (ps : Hmesh.Mesh P) (smF base : Nat) (reg : List (Nat × Nat)) (v w : Nat) (k : Kind) : Prop :=
  ∃ x y, PointOf reg base v x ∧ PointOf reg base w y ∧ Registry.BorderEdge ps x ∧ Registry.BorderEdge ps y ∧ k.linear = true ∧
    (k.hole = true ↔ Registry.CutEdge ps smF x ∧ Registry.CutEdge ps smF y) ∧ (k.severing = true ↔ SourceEdge ps smF x ∧ SourceEdge ps smF y)

/-- Spec: the kind of a loop: it makes a hole and severs the source mesh; none of its points lies on a border edge. -/
def LoopKind {P : Type} (ps : Hmesh.Mesh P) (base : Nat) (reg : List (Nat × Nat)) (ends : Nat → Nat × Nat) (seq : List Nat) (k : Kind) : Prop :=
  k = ⟨false, true, true⟩ ∧ ∀ e ∈ seq, ∀ v, ((ends e).1 = v ∨ (ends e).2 = v) → ∀ x, PointOf reg base v x → ¬ Registry.BorderEdge ps x

end Mcut.CutPaths
