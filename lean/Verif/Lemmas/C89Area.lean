import Mathlib.Algebra.BigOperators.Group.Finset.Basic
import Mathlib.Tactic.Ring
import Mathlib.Tactic.LinearCombination
import Verif.Spec.C89
import Verif.Props.C58
import Verif.Props.C42
import Verif.Lemmas.C88Insert

/-! # Sums over the triangles of a face -/
namespace Mcut.Cdt
open Mcut.Geom Mcut.Hmesh Mcut.Preproc
open scoped BigOperators
variable {K : Type} [Field K] [LinearOrder K]

theorem sum_flatMap_map {α : Type} (G : α → K) (e : List Nat → List α) : ∀ out : List (List Nat), (out.map (fun f => ((e f).map G).sum)).sum = ((out.flatMap e).map G).sum
  | [] => rfl
  | f :: l => by rw [List.map_cons, List.sum_cons, sum_flatMap_map G e l, List.flatMap_cons, List.map_append, List.sum_append]

theorem Fills.sides_ne {n : Nat} {out : List (List Nat)} (F : Fills n out) {p : Nat × Nat} (hp : p ∈ out.flatMap dirEdges) : p.1 ≠ p.2 := by
  obtain ⟨f, hf, h⟩ := List.mem_flatMap.1 hp
  obtain ⟨⟨h3, nd, -⟩, hl⟩ := F.corners f hf
  match f, hl with
  | [a, b, c], _ =>
    rw [dirEdges_eq, cyc3] at h
    simp only [List.nodup_cons, List.mem_cons, List.not_mem_nil, or_false, not_or] at nd
    simp only [List.mem_cons, List.not_mem_nil, or_false] at h
    rcases h with rfl | rfl | rfl
    · exact nd.1.1
    · exact nd.2.1
    · exact fun h => nd.1.2 h.symm

/-- A sum over all sides of the triangles is a sum over the outline, if opposite sides cancel. -/
theorem Fills.sum {n : Nat} {out : List (List Nat)} (F : Fills n out) (G : Nat → Nat → K) (anti : ∀ a b, G a b + G b a = 0) :
    (out.map (fun f => ((dirEdges f).map (fun p => G p.1 p.2)).sum)).sum = ∑ i ∈ Finset.range n, G i ((i + 1) % n) := by
  classical
  rw [sum_flatMap_map (fun p : Nat × Nat => G p.1 p.2) dirEdges out]
  obtain ⟨l, hl⟩ : ∃ l, l = out.flatMap dirEdges := ⟨_, rfl⟩
  have nd : l.Nodup := by rw [hl]; exact F.once
  rw [← hl, ← List.sum_toFinset _ nd, ← Finset.sum_filter_add_sum_filter_not l.toFinset (fun p : Nat × Nat => (p.2, p.1) ∈ l)]
  have z : ∑ p ∈ l.toFinset with (p.2, p.1) ∈ l, G p.1 p.2 = 0 := by
    refine Finset.sum_involution (fun p _ => (p.2, p.1)) (fun p _ => anti _ _) ?_ ?_ (fun _ _ => rfl)
    · intro p hp _ he
      have := F.sides_ne (by rw [← hl]; exact List.mem_toFinset.1 (Finset.mem_filter.1 hp).1)
      exact this (congrArg Prod.snd he)
    · intro p hp
      obtain ⟨h1, h2⟩ := Finset.mem_filter.1 hp
      exact Finset.mem_filter.2 ⟨List.mem_toFinset.2 h2, List.mem_toFinset.1 h1⟩
  rw [z, zero_add]
  have im : (l.toFinset.filter (fun p : Nat × Nat => ¬(p.2, p.1) ∈ l)) = (Finset.range n).image (fun i => (i, (i + 1) % n)) := by
    ext p
    simp only [Finset.mem_filter, List.mem_toFinset, Finset.mem_image, Finset.mem_range]
    rw [hl]
    constructor
    · rintro h
      obtain ⟨h1, h2⟩ := (F.rim p.1 p.2).1 h
      exact ⟨p.1, h1, by rw [← h2]⟩
    · rintro ⟨i, hi, rfl⟩
      exact (F.rim _ _).2 ⟨hi, rfl⟩
  rw [im, Finset.sum_image]
  intro i _ j _ h
  exact congrArg Prod.fst h

/-- The sum over consecutive elements. -/
def runSum (G : V3 K → V3 K → K) : List (V3 K) → K
  | a :: b :: l => G a b + runSum G (b :: l)
  | _ => 0

theorem runSum_range (G : V3 K → V3 K → K) : ∀ l : List (V3 K), runSum G l = ∑ i ∈ Finset.range (l.length - 1), G (at3 l i) (at3 l (i + 1))
  | [] => rfl
  | [a] => rfl
  | a :: b :: l => by
    have := runSum_range G (b :: l)
    rw [runSum, this, show (a :: b :: l).length - 1 = (b :: l).length - 1 + 1 by simp, Finset.sum_range_succ']
    simp only [at3, List.getD_cons_succ, List.getD_cons_zero]
    rw [add_comm]

theorem at3_last (v : V3 K) (l : List (V3 K)) : at3 (v :: l) l.length = (v :: l).getLast (by simp) := by
  unfold at3
  rw [List.getD_eq_getElem?_getD, List.getElem?_eq_getElem (by simp), Option.getD_some, List.getLast_eq_getElem]
  rfl

theorem normalFrom_sum (n v0 : V3 K) : ∀ (l : List (V3 K)) (a : V3 K), dot n (normalFrom v0 (a :: l)) =
    runSum (fun a b => dot n (Geom.cross a b)) (a :: l) + dot n (Geom.cross ((a :: l).getLast (by simp)) v0) - dot n (Geom.cross a v0)
  | [], a => by simp only [normalFrom, runSum, List.getLast_singleton]; unfold dot; ring
  | b :: l, a => by
    have ih := normalFrom_sum n v0 l b
    rw [List.getLast_cons (by simp), normalFrom, runSum]
    have e : dot n (add3 (Geom.cross (sub3 a v0) (sub3 b v0)) (normalFrom v0 (b :: l))) = dot n (Geom.cross (sub3 a v0) (sub3 b v0)) + dot n (normalFrom v0 (b :: l)) := by
      unfold dot add3; ring
    rw [e, ih]
    unfold dot Geom.cross sub3
    ring

/-- The normal of a polygon as a sum over its edges. -/
theorem polygonNormal_sum (n : V3 K) (vs : List (V3 K)) (h : vs ≠ []) :
    dot n (polygonNormal vs) = ∑ i ∈ Finset.range vs.length, dot n (Geom.cross (at3 vs i) (at3 vs ((i + 1) % vs.length))) := by
  match vs, h with
  | v :: l, _ =>
    rw [polygonNormal, normalFrom_sum, runSum_range, List.length_cons, Nat.add_sub_cancel, Finset.sum_range_succ, Nat.mod_self]
    have e : ∑ i ∈ Finset.range l.length, dot n (Geom.cross (at3 (v :: l) i) (at3 (v :: l) ((i + 1) % (l.length + 1)))) = ∑ i ∈ Finset.range l.length, dot n (Geom.cross (at3 (v :: l) i) (at3 (v :: l) (i + 1))) := by
      refine Finset.sum_congr rfl fun i hi => ?_
      rw [Nat.mod_eq_of_lt (by have := Finset.mem_range.1 hi; omega)]
    rw [e, at3_last]
    have z : dot n (Geom.cross v v) = 0 := by unfold dot Geom.cross; ring
    have h0 : at3 (v :: l) 0 = v := rfl
    rw [z, h0, sub_zero]

theorem triangle_sum (n : V3 K) (P : Nat → V3 K) (a b c : Nat) :
    dot n (triangleNormal P [a, b, c]) = ((dirEdges [a, b, c]).map (fun p => dot n (Geom.cross (P p.1) (P p.2)))).sum := by
  rw [dirEdges_eq, cyc3]
  simp only [triangleNormal, polygonNormal, normalFrom, List.map_cons, List.map_nil, List.sum_cons, List.sum_nil]
  unfold dot add3 Geom.cross sub3
  ring

/-- The normals of the triangles add up to that of the face. -/
theorem Fills.normals {vs : List (V3 K)} {out : List (List Nat)} (F : Fills vs.length out) (h : vs ≠ []) (n : V3 K) :
    (out.map (fun f => dot n (triangleNormal (at3 vs) f))).sum = dot n (polygonNormal vs) := by
  rw [polygonNormal_sum n vs h, ← F.sum (fun a b => dot n (Geom.cross (at3 vs a) (at3 vs b))) (fun a b => by unfold dot Geom.cross; ring)]
  congr 1
  refine List.map_congr_left fun f hf => ?_
  obtain ⟨-, hl⟩ := F.corners f hf
  match f, hl with
  | [a, b, c], _ => exact triangle_sum n _ a b c

end Mcut.Cdt
