import Verif.Model.ProjSort
import Verif.Spec.C66
import Mathlib.Data.Finset.Card
import Mathlib.Algebra.Group.Nat.Even

/-! Specification notions used in the statements of `Props/C93.lean`. -/
namespace Mcut.CutEdges
open Mcut.Hmesh Mcut.Registry Mcut.Geom
variable {P : Type} {K : Type*} [Field K] [LinearOrder K]

/-- Spec: the contract of `std::sort`: the result has the same elements, and none is less than one before it. -/
def Sorts (sort : List (Nat × K) → List (Nat × K)) : Prop :=
  ∀ l, (sort l).Perm l ∧ (sort l).Pairwise (fun a b => ¬ b.2 < a.2)

/-- Spec: point `q` is strictly between `p` and `r`. -/
def StrictlyBetween (p q r : V3 K) : Prop :=
  ∃ s : K, 0 < s ∧ s < 1 ∧ q.x = p.x + s * (r.x - p.x) ∧ q.y = p.y + s * (r.y - p.y) ∧ q.z = p.z + s * (r.z - p.z)

/-- Spec: the points of `l` are on one line. -/
def OnOneLine (pos : Nat → V3 K) (l : List Nat) : Prop :=
  ∃ a u : V3 K, ∀ v ∈ l, ∃ t : K, (pos v).x = a.x + t * u.x ∧ (pos v).y = a.y + t * u.y ∧ (pos v).z = a.z + t * u.z

/-- Spec: `v` and `w` are different, both are in `l`, and no point of `l` is strictly between them. -/
def NextTo (pos : Nat → V3 K) (l : List Nat) (v w : Nat) : Prop :=
  v ∈ l ∧ w ∈ l ∧ v ≠ w ∧ ∀ u ∈ l, ¬ StrictlyBetween (pos v) (pos u) (pos w)

/-- Spec: `v` and `w` come one after the other in `l`, in this or the other order. -/
def Consecutive (l : List Nat) (v w : Nat) : Prop := ∃ l1 l2, l = l1 ++ v :: w :: l2 ∨ l = l1 ++ w :: v :: l2

/-- Spec: as `CutGraph`, for any relation `seg k v w` ("points `v` and `w` of the faces `k` shall be joined"): exactly one edge between any two points that shall be joined,
no other edge; the edges of a face are those of its pairs; the halfedges of a point are those that end in it. -/
structure GraphOf (m : Mesh P) (seg : Nat × Nat → Nat → Nat → Prop) (st : St P) : Prop where
  mesh : EdgesOnly m st.m0 st.cutEdges.length
  numbers : st.cutEdges = List.range st.cutEdges.length
  only : ∀ e ∈ st.cutEdges, ∃ k v w, seg k v w ∧ Joins st.m0 e v w
  every : ∀ k v w, seg k v w → ∃ e ∈ st.cutEdges, Joins st.m0 e v w
  once : ∀ e ∈ st.cutEdges, ∀ e' ∈ st.cutEdges, ∀ v w, Joins st.m0 e v w → Joins st.m0 e' v w → e = e'
  noLoop : ∀ e ∈ st.cutEdges, st.m0.edgeVertex e 0 ≠ st.m0.edgeVertex e 1
  facesNodup : ∀ f, (st.faceEdges f).Nodup
  faces : ∀ f e, e ∈ st.faceEdges f ↔ e ∈ st.cutEdges ∧ ∃ k v w, seg k v w ∧ (f = k.1 ∨ f = k.2) ∧ Joins st.m0 e v w
  inNodup : ∀ v, (st.incoming v).Nodup
  incoming : ∀ v h, h ∈ st.incoming v ↔ edgeOf h ∈ st.cutEdges ∧ st.m0.target h = v

/-- Spec: which points of the faces `k` are joined: two common points always; of more, those that follow each other in the given order and whose middle is inside of
both faces. -/
def Wanted (sort : List Nat → List Nat) (inside : Nat → Nat → Nat → Bool) (cut : Nat × Nat → List Nat) (k : Nat × Nat) (v w : Nat) : Prop :=
  cut k = [v, w] ∨ (2 < (cut k).length ∧ (∃ l1 l2, sort (cut k) = l1 ++ v :: w :: l2) ∧ inside k.1 v w = true ∧ inside k.2 v w = true)

/-- Spec: the point halfway from `a` to `b`. -/
def halfway (a b : V3 K) : V3 K := ⟨a.x + (b.x - a.x) / 2, a.y + (b.y - a.y) / 2, a.z + (b.z - a.z) / 2⟩

/-- Spec: the same in space: `v` and `w` are neighbours among the common points of the faces `k`, and are the only two, or their middle is inside of both faces. -/
def Segment (test : Nat → V3 K → Bool) (pos : Nat → V3 K) (cut : Nat × Nat → List Nat) (k : Nat × Nat) (v w : Nat) : Prop :=
  NextTo pos (cut k) v w ∧ ((cut k).length = 2 ∨ (test k.1 (halfway (pos v) (pos w)) = true ∧ test k.2 (halfway (pos v) (pos w)) = true))

/-- Spec: the point with parameter `s` on a line. -/
def onLine (a u : V3 K) (s : K) : V3 K := ⟨a.x + s * u.x, a.y + s * u.y, a.z + s * u.z⟩

/-- Spec: the two faces `k` seen along their line. The border of each face crosses it at an even number of places (`X`, `Y`, never both at once); a point of the line is
inside of a face if an odd number of the crossings of the face come before it; the common points are where the border of one face crosses inside of the other face. -/
def EvenOdd (test : Nat → V3 K → Bool) (pos : Nat → V3 K) (k : Nat × Nat) (l : List Nat) : Prop :=
  ∃ (a u : V3 K) (t : Nat → K) (X Y : Finset K), u ≠ ⟨0, 0, 0⟩ ∧ (∀ v ∈ l, pos v = onLine a u (t v)) ∧ Disjoint X Y ∧ Even X.card ∧ Even Y.card ∧
    (∀ s, s ∉ X → (test k.1 (onLine a u s) = true ↔ Odd (X.filter (fun x => x < s)).card)) ∧
    (∀ s, s ∉ Y → (test k.2 (onLine a u s) = true ↔ Odd (Y.filter (fun x => x < s)).card)) ∧
    ∀ s, (∃ v ∈ l, t v = s) ↔ (s ∈ X ∧ test k.2 (onLine a u s) = true) ∨ (s ∈ Y ∧ test k.1 (onLine a u s) = true)

end Mcut.CutEdges
