import Verif.Lemmas.C76Cross

/-! Lemmas for C76: polygons above and below. -/
namespace Mcut.Trace
open Mcut.Hmesh Mcut.Registry Mcut.CutEdges Mcut.Boundary
variable {P : Type} {d : P} {ps : Mesh P} {base : Nat} {pts : Nat → List Nat} {sort : Nat → Nat → List Nat → List Nat} {edges : List Nat} {c : CutEdges.St P} {st : Boundary.St P}
  {pieces : Nat → List Nat} {reg : List (Nat × Nat)}

/-! ### The lists -/

theorem marks_spec (ev : List (Nat × Nat)) : let s := ev.foldl (fun s e => mark e.1 s e.2) ([], [])
    s.1.Nodup ∧ (∀ i, i ∈ s.1 ↔ ∃ j, (i, j) ∈ ev) ∧ (∀ j ∈ s.2, ∃ i, (i, j) ∈ ev) ∧ ∀ i j, (i, j) ∈ ev → j ∈ s.2 ∨ i ∈ s.2 := by
  induction ev using List.reverseRecOn with
  | nil => simp
  | append_singleton ev e ih =>
    obtain ⟨h1, h2, h3, h4⟩ := ih
    rw [List.foldl_append, List.foldl_cons, List.foldl_nil]
    generalize ev.foldl (fun s e => mark e.1 s e.2) ([], []) = s at *
    obtain ⟨i, j⟩ := e
    unfold mark
    simp only [List.contains_iff_mem]
    refine ⟨?_, ?_, ?_, ?_⟩
    · split
      · exact h1
      · rename_i hn
        rw [List.nodup_append]
        refine ⟨h1, by simp, ?_⟩
        intro a ha b hb hab
        rw [List.mem_singleton] at hb
        exact hn (hb ▸ hab ▸ ha)
    · intro a
      have : a ∈ (if i ∈ s.1 then s.1 else s.1 ++ [i]) ↔ a ∈ s.1 ∨ a = i := by
        split
        · rename_i hi
          exact ⟨.inl, fun h => h.elim id (fun e => e ▸ hi)⟩
        · simp
      rw [this, h2]
      constructor
      · rintro (⟨b, hb⟩ | rfl)
        · exact ⟨b, List.mem_append_left _ hb⟩
        · exact ⟨j, by simp⟩
      · rintro ⟨b, hb⟩
        rcases List.mem_append.1 hb with hb | hb
        · exact .inl ⟨b, hb⟩
        · simp at hb; exact .inr hb.1
    · intro b hb
      split at hb
      · obtain ⟨a, ha⟩ := h3 b hb
        exact ⟨a, List.mem_append_left _ ha⟩
      · rcases List.mem_append.1 hb with hb | hb
        · obtain ⟨a, ha⟩ := h3 b hb
          exact ⟨a, List.mem_append_left _ ha⟩
        · rw [List.mem_singleton] at hb
          subst hb
          exact ⟨i, by simp⟩
    · intro a b hab
      rcases List.mem_append.1 hab with hab | hab
      · rcases h4 a b hab with h | h
        · left; split
          · exact h
          · exact List.mem_append_left _ h
        · right; split
          · exact h
          · exact List.mem_append_left _ h
      · simp only [List.mem_singleton, Prod.mk.injEq] at hab
        obtain ⟨rfl, rfl⟩ := hab
        by_cases hi : a ∈ s.2
        · rw [if_pos hi]; exact .inr hi
        · rw [if_neg hi]; left; simp

/-- The halfedges of one polygon. -/
theorem sidesOf_eq {ps m0 : Mesh P} {smV smF base numCut : Nat} {falls : Nat → Nat → Nat → Option Bool} {T : Nat → List Nat} {o : Out} {i : Nat} {p : List Nat} {R : Nat × Nat → Option Nat}
    (hp : o.polygons[i]? = some p) (hR : ∀ x ∈ p.zipIdx, verdict ps m0 smV smF base numCut reg falls T o.smCount p x.1 x.2 = some (R x)) (s : List Nat × List Nat) :
    sidesOf ps m0 smV smF base numCut reg falls T o i s = some ((p.zipIdx.filterMap (fun x => (R x).map (fun j => (i, j)))).foldl (fun s e => mark e.1 s e.2) s) := by
  unfold sidesOf
  rw [hp, Option.bind_some]
  have gen : ∀ (l : List (Nat × Nat)) (s : List Nat × List Nat), (∀ x ∈ l, x ∈ p.zipIdx) →
      l.foldlM (fun s x => (verdict ps m0 smV smF base numCut reg falls T o.smCount p x.1 x.2).map (fun r => r.elim s (mark i s))) s =
        some ((l.filterMap (fun x => (R x).map (fun j => (i, j)))).foldl (fun s e => mark e.1 s e.2) s) := by
    intro l
    induction l with
    | nil => intro s _; rfl
    | cons a l ih =>
      intro s hl
      rw [List.foldlM_cons, hR a (hl a List.mem_cons_self), List.filterMap_cons]
      have := fun s => ih s (fun x hx => hl x (List.mem_cons_of_mem _ hx))
      cases hRa : R a with
      | none => exact this _
      | some j => exact this _
  exact gen _ _ (fun x hx => hx)

theorem sides_eq {ps m0 : Mesh P} {smV smF base numCut : Nat} {falls : Nat → Nat → Nat → Option Bool} {T : Nat → List Nat} {o : Out} {R : Nat → Nat × Nat → Option Nat}
    (hR : ∀ i ∈ o.sm, ∃ p, o.polygons[i]? = some p ∧ ∀ x ∈ p.zipIdx, verdict ps m0 smV smF base numCut reg falls T o.smCount p x.1 x.2 = some (R i x)) :
    ∃ ev : List (Nat × Nat), (∀ i j, (i, j) ∈ ev ↔ i ∈ o.sm ∧ ∃ p, o.polygons[i]? = some p ∧ ∃ x ∈ p.zipIdx, R i x = some j) ∧
      sides ps m0 smV smF base numCut reg falls T o = some ((ev.foldl (fun s e => mark e.1 s e.2) ([], [])).1.mergeSort (fun a b => decide (a ≤ b)),
        (ev.foldl (fun s e => mark e.1 s e.2) ([], [])).2.mergeSort (fun a b => decide (a ≤ b))) := by
  refine ⟨o.sm.flatMap (fun i => ((o.polygons[i]?).getD []).zipIdx.filterMap (fun x => (R i x).map (fun j => (i, j)))), ?_, ?_⟩
  · intro i j
    simp only [List.mem_flatMap, List.mem_filterMap, Option.map_eq_some_iff, Prod.mk.injEq]
    constructor
    · rintro ⟨i', hi', x, hx, j', hj, rfl, rfl⟩
      obtain ⟨p, hp, -⟩ := hR i' hi'
      rw [hp, Option.getD_some] at hx
      exact ⟨hi', p, hp, x, hx, hj⟩
    · rintro ⟨hi, p, hp, x, hx, hj⟩
      exact ⟨i, hi, x, by rw [hp, Option.getD_some]; exact hx, j, hj, rfl, rfl⟩
  · unfold sides
    have gen : ∀ (l : List Nat) (s : List Nat × List Nat), (∀ i ∈ l, i ∈ o.sm) → l.foldlM (fun s i => sidesOf ps m0 smV smF base numCut reg falls T o i s) s =
        some ((l.flatMap (fun i => ((o.polygons[i]?).getD []).zipIdx.filterMap (fun x => (R i x).map (fun j => (i, j))))).foldl (fun s e => mark e.1 s e.2) s) := by
      intro l
      induction l with
      | nil => intro s _; rfl
      | cons a l ih =>
        intro s hl
        obtain ⟨p, hp, hv⟩ := hR a (hl a List.mem_cons_self)
        rw [List.foldlM_cons, sidesOf_eq hp hv, List.flatMap_cons, List.foldl_append, hp, Option.getD_some]
        exact ih _ (fun x hx => hl x (List.mem_cons_of_mem _ hx))
    rw [gen _ _ (fun i hi => hi)]
    rfl

/-! ### The tables -/

theorem Listed.into {smF : Nat} {faces : List Nat} {poly : Nat → List (List Nat)} {o : Out} (L : Listed smF c faces poly o) {i : Nat} {p : List Nat} (hi : o.polygons[i]? = some p) :
    ∃ f ∈ faces, o.faceOf i = some f ∧ p ∈ poly f := by
  obtain ⟨e1, e2⟩ := pairs_split (poly := poly) faces i
  rw [L.polygons, e1] at hi
  cases hz : (faces.flatMap (fun f => (poly f).map (fun p => (f, p))))[i]? with
  | none => rw [hz] at hi; cases hi
  | some y =>
    rw [hz] at hi e2
    have hy := List.mem_of_getElem? hz
    obtain ⟨f, hf, hy⟩ := List.mem_flatMap.1 hy
    obtain ⟨q, hq, rfl⟩ := List.mem_map.1 hy
    simp only [Option.map_some, Option.some.injEq] at hi
    subst hi
    exact ⟨f, hf, by rw [L.faceOf, e2]; rfl, hq⟩

theorem Listed.poly_of {smF : Nat} {faces : List Nat} {poly : Nat → List (List Nat)} {o : Out} (L : Listed smF c faces poly o) {i f : Nat} (hi : o.faceOf i = some f) :
    ∃ p, o.polygons[i]? = some p := by
  obtain ⟨e1, e2⟩ := pairs_split (poly := poly) faces i
  rw [L.faceOf, e2] at hi
  rw [L.polygons, e1]
  cases hz : (faces.flatMap (fun f => (poly f).map (fun p => (f, p))))[i]? with
  | none => rw [hz] at hi; cases hi
  | some y => exact ⟨y.2, rfl⟩

theorem Listed.out {smF : Nat} {faces : List Nat} {poly : Nat → List (List Nat)} {o : Out} (L : Listed smF c faces poly o) {f : Nat} {p : List Nat} (hf : f ∈ faces) (hp : p ∈ poly f) :
    ∃ i, o.polygons[i]? = some p ∧ o.faceOf i = some f := by
  have : (f, p) ∈ faces.flatMap (fun f => (poly f).map (fun p => (f, p))) := List.mem_flatMap.2 ⟨f, hf, List.mem_map.2 ⟨p, hp, rfl⟩⟩
  obtain ⟨i, hi⟩ := List.mem_iff_getElem?.1 this
  obtain ⟨e1, e2⟩ := pairs_split (poly := poly) faces i
  rw [hi] at e1 e2
  exact ⟨i, by rw [L.polygons, e1]; rfl, by rw [L.faceOf, e2]; rfl⟩

/-- The polygons of the source mesh come first. -/
theorem Listed.first {smF : Nat} {faces : List Nat} {poly : Nat → List (List Nat)} {o : Out} (L : Listed smF c faces poly o) (hs : faces.Pairwise (· < ·)) {i f : Nat} (hi : o.faceOf i = some f) :
    i < o.smCount ↔ f < smF := by
  have hsplit : faces = faces.filter (fun f => decide (f < smF)) ++ faces.filter (fun f => decide (smF ≤ f)) := by
    clear L
    induction faces with
    | nil => rfl
    | cons a l ih =>
      rw [List.pairwise_cons] at hs
      by_cases ha : a < smF
      · rw [List.filter_cons_of_pos (by simpa using ha), List.filter_cons_of_neg (by simpa using ha), List.cons_append, ← ih hs.2]
      · have h0 : ∀ b ∈ a :: l, ¬ b < smF := by
          intro b hb
          rcases List.mem_cons.1 hb with rfl | hb
          · exact ha
          · have := hs.1 b hb; omega
        rw [List.filter_eq_nil_iff.2 (by simpa using h0), List.nil_append, List.filter_eq_self.2]
        intro b hb
        have := h0 b hb
        simp; omega
  have hlen : ∀ l : List Nat, (l.flatMap (fun f => (poly f).map (fun _ => f))).length = (l.flatMap poly).length := by
    intro l; simp [List.length_flatMap]
  rw [L.faceOf, hsplit, List.flatMap_append] at hi
  rw [L.smCount, ← hlen]
  constructor
  · intro h
    rw [List.getElem?_append_left h] at hi
    obtain ⟨g, hg, hm⟩ := List.mem_flatMap.1 (List.mem_of_getElem? hi)
    obtain ⟨-, -, rfl⟩ := List.mem_map.1 hm
    simpa using (List.mem_filter.1 hg).2
  · intro h
    by_contra hn
    rw [List.getElem?_append_right (by omega)] at hi
    obtain ⟨g, hg, hm⟩ := List.mem_flatMap.1 (List.mem_of_getElem? hi)
    obtain ⟨-, -, rfl⟩ := List.mem_map.1 hm
    have := (List.mem_filter.1 hg).2
    simp at this
    omega

end Mcut.Trace
