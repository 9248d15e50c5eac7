import Verif.Lemmas.C85Tri
import Verif.Spec.C86
import Mathlib.Algebra.BigOperators.Group.Finset.Basic
import Mathlib.Data.Fintype.Prod
import Mathlib.Data.Fintype.Fin
import Mathlib.Algebra.BigOperators.Fin
import Mathlib.Data.Fintype.BigOperators

/-! # A sum over the sides of triangles is a sum over the boundary -/
namespace Mcut.Cdt
open Mcut.Geom
variable {K : Type} [Field K] [LinearOrder K] [IsStrictOrderedRing K]
variable {pos : Nat → V2 K} {ts : List Tri}

/-- The sides of the triangles. -/
abbrev Sd (ts : List Tri) := Fin ts.length × Fin 3

def Sd.tri (x : Sd ts) : Tri := ts[x.1]
def Sd.a (x : Sd ts) : Nat := x.tri.v x.2
def Sd.b (x : Sd ts) : Nat := x.tri.v (x.2 + 1)
def Sd.n (x : Sd ts) : Option Nat := x.tri.n x.2

theorem Sd.get (x : Sd ts) : ts[x.1.1]? = some x.tri := List.getElem?_eq_getElem x.1.2

theorem Sd.has (x : Sd ts) : Has ts x.1 x.a x.b x.n := ⟨x.tri, x.get, x.2, rfl, rfl, rfl⟩

/-- The same side of the neighbour. -/
theorem Mutual.mate (h : Mutual pos ts) (x : Sd ts) {k : Nat} (hn : x.n = some k) : ∃ y : Sd ts, y.1.1 = k ∧ y.a = x.b ∧ y.b = x.a ∧ y.n = some x.1.1 := by
  obtain ⟨t', j, e', h1, h2, h3⟩ := h.other x.get hn
  obtain ⟨hk, he⟩ := List.getElem?_eq_some_iff.1 e'
  refine ⟨(⟨k, hk⟩, j), rfl, ?_, ?_, ?_⟩
  · show ts[k].v j = _; rw [he]; exact h2
  · show ts[k].v (j + 1) = _; rw [he]; exact h3
  · show ts[k].n j = _; rw [he]; exact h1

/-- Two sides of a triangle have different neighbours. -/
theorem Mutual.same (h : Mutual pos ts) {x y : Sd ts} (h1 : x.1.1 = y.1.1) {k : Nat} (hx : x.n = some k) (hy : y.n = some k) : x = y := by
  obtain ⟨x1, x2⟩ := x
  obtain ⟨y1, y2⟩ := y
  have : x1 = y1 := Fin.ext h1
  subst this
  have := h.uniq (Sd.get (x1, x2)) hx hy
  simp only at this
  rw [this]

/-- A side at which one leaves the set. -/
def Leaves (S : Nat → Prop) (x : Sd ts) : Prop := S x.1 ∧ ∀ k, x.n = some k → ¬S k

open Classical in
theorem cancel {A : Type} [AddCommGroup A] (h : Mutual pos ts) (S : Nat → Prop) (φ : Nat → Nat → A) (anti : ∀ a b, φ b a = -φ a b) :
    ∑ x : Sd ts with S x.1, φ x.a x.b = ∑ x : Sd ts with Leaves S x, φ x.a x.b := by
  rw [← Finset.sum_filter_add_sum_filter_not (Finset.univ.filter (fun x : Sd ts => S x.1)) (fun x => Leaves S x)]
  rw [Finset.filter_filter, Finset.filter_filter]
  have e1 : (Finset.univ.filter (fun x : Sd ts => S x.1 ∧ Leaves S x)) = Finset.univ.filter (fun x : Sd ts => Leaves S x) := by
    apply Finset.filter_congr
    intro x _
    exact ⟨fun h => h.2, fun h => ⟨h.1, h⟩⟩
  rw [e1]
  have key : ∀ x : Sd ts, S x.1 ∧ ¬Leaves S x → ∃ y : Sd ts, (S y.1 ∧ ¬Leaves S y) ∧ y.a = x.b ∧ y.b = x.a ∧ x.n = some y.1.1 ∧ y.n = some x.1.1 := by
    rintro x ⟨hs, hl⟩
    have : ∃ k, x.n = some k ∧ S k := by
      by_contra hc
      exact hl ⟨hs, fun k hk hS => hc ⟨k, hk, hS⟩⟩
    obtain ⟨k, hk, hS⟩ := this
    obtain ⟨y, rfl, h2, h3, h4⟩ := h.mate x hk
    exact ⟨y, ⟨hS, fun hL => hL.2 _ h4 hs⟩, h2, h3, hk, h4⟩
  have z : ∑ x : Sd ts with S x.1 ∧ ¬Leaves S x, φ x.a x.b = 0 := by
    refine Finset.sum_involution (fun x hx => (key x (Finset.mem_filter.1 hx).2).choose) ?_ ?_ ?_ ?_
    · intro x hx
      obtain ⟨-, h2, h3, -⟩ := (key x (Finset.mem_filter.1 hx).2).choose_spec
      rw [h2, h3, anti x.a x.b]
      exact add_neg_cancel _
    · intro x hx _ he
      obtain ⟨-, -, -, h4, -⟩ := (key x (Finset.mem_filter.1 hx).2).choose_spec
      rw [he] at h4
      exact h.ne x.get h4 rfl
    · intro x hx
      exact Finset.mem_filter.2 ⟨Finset.mem_univ _, (key x (Finset.mem_filter.1 hx).2).choose_spec.1⟩
    · intro x hx
      obtain ⟨p, -, -, h4, h5⟩ := (key x (Finset.mem_filter.1 hx).2).choose_spec
      obtain ⟨-, -, -, h4', h5'⟩ := (key _ p).choose_spec
      refine h.same ?_ h5' h4
      exact Option.some.inj (h4'.symm.trans h5)
  rw [z, add_zero]

open Classical in
/-- A sum over the sides, triangle by triangle. -/
theorem sum_sides {A : Type} [AddCommMonoid A] (S : Nat → Prop) (φ : Nat → Nat → A) :
    ∑ x : Sd ts with S x.1, φ x.a x.b = ∑ k : Fin ts.length with S k.1, (φ (ts[k].v 0) (ts[k].v 1) + φ (ts[k].v 1) (ts[k].v 2) + φ (ts[k].v 2) (ts[k].v 0)) := by
  rw [Finset.sum_filter, Finset.sum_filter, Fintype.sum_prod_type]
  apply Finset.sum_congr rfl
  intro k _
  by_cases hS : S k.1
  · simp only [if_pos hS]
    rw [Fin.sum_univ_three]
    rfl
  · simp [hS]

end Mcut.Cdt
