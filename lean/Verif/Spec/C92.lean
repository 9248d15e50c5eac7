import Verif.Model.InnerBorder
import Verif.Spec.Hmesh

/-! # Specification for C92: the border of the cut mesh inside of the source mesh -/
namespace Mcut.Inner
open Mcut.Hmesh
open Mcut.Trace (src)
variable {P : Type}

/-- The polygons, and what is known about them: `users` lists the polygons of each halfedge; polygons are closed, without repetitions; a halfedge with an end that is no intersection point belongs to one polygon only. -/
structure Surface (m : Mesh P) (base : Nat) (polys : List (List Nat)) (users : Nat → List Nat) : Prop where
  users : ∀ h e, e ∈ users h ↔ ∃ p, polys[e]? = some p ∧ h ∈ p
  nodup : ∀ p ∈ polys, p.Nodup
  ends : ∀ p ∈ polys, ∀ h ∈ p, src m h = m.target (opposite h) ∧ src m (opposite h) = m.target h
  closed : ∀ p ∈ polys, ∀ x ∈ cycPairs p, m.target x.1 = src m x.2
  once : ∀ (e e' : Nat) (p p' : List Nat) (h : Nat), polys[e]? = some p → polys[e']? = some p' → h ∈ p → h ∈ p' → (src m h < base ∨ m.target h < base) → e = e'

/-- Halfedge `h` is on the border: it belongs to a polygon, the opposite one does not. -/
def OnBorder (polys : List (List Nat)) (h : Nat) : Prop := (∃ p ∈ polys, h ∈ p) ∧ ∀ p ∈ polys, opposite h ∉ p

/-- Halfedge `h` of a polygon of the cut mesh leads from point `r` along the border to a point that is no intersection point. -/
def Leads (m : Mesh P) (base smCount : Nat) (polys : List (List Nat)) (r h : Nat) : Prop :=
  OnBorder polys h ∧ src m h = r ∧ m.target h < base ∧ ∃ e p, smCount ≤ e ∧ polys[e]? = some p ∧ h ∈ p

/-- A piece of the border, from a re-entrant point of `queue` to the next intersection point. -/
structure Piece (m : Mesh P) (base smCount : Nat) (polys : List (List Nat)) (queue : List Nat) (l : List Nat) : Prop where
  border : ∀ h ∈ l, OnBorder polys h
  chain : l.IsChain (fun a b => src m b = m.target a)
  start : ∃ h, l.head? = some h ∧ src m h ∈ queue ∧ Leads m base smCount polys (src m h) h
  stop : ∃ h, l.getLast? = some h ∧ base ≤ m.target h
  between : ∀ h ∈ l.dropLast, m.target h < base

/-- The polygons come in the order of the queue: what begins at an earlier point belongs to an earlier polygon. -/
def InOrder (m : Mesh P) (base smCount : Nat) (polys : List (List Nat)) (queue : List Nat) : Prop :=
  queue.Pairwise (fun r r' => ∀ (h h' e e' : Nat) (p p' : List Nat), Leads m base smCount polys r h → Leads m base smCount polys r' h' → polys[e]? = some p → polys[e']? = some p' → h ∈ p → h' ∈ p' → e < e')

end Mcut.Inner
