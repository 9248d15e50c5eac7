import Verif.Spec.C71

/-! Lemmas for C71: the tables of all faces. -/
namespace Mcut.Trace
open Mcut.Hmesh Mcut.Registry Mcut.CutEdges Mcut.Boundary
variable {P : Type} {ps : Mesh P} {st : Boundary.St P} {smF base : Nat} {reg : List (Nat × Nat)} {part : (Nat → Bool) → List Nat → List Nat × List Nat}

/-- Adding to merged tables. -/
theorem merge_add (o b : Out) (f : Nat) (cutting : Bool) (l : List (List Nat)) : merge o (add smF f cutting l b) = add smF f cutting l (merge o b) := by
  have hr : ∀ k n, (List.range' k n).map (· + o.polygons.length) = List.range' (o.polygons.length + k) n := by
    intro k n
    rw [show ((fun x => x + o.polygons.length) : Nat → Nat) = (fun x => o.polygons.length + x) by funext x; omega, List.map_add_range']
  unfold merge add
  simp only [List.append_assoc, List.length_append, Out.mk.injEq, true_and]
  refine ⟨?_, ?_, ?_, ?_⟩
  · split
    · rw [List.map_append, hr]
    · rfl
  · split
    · rw [List.map_append, hr]
    · rfl
  · split <;> omega
  · funext i
    unfold number
    by_cases h1 : o.polygons.length ≤ i
    · by_cases h2 : b.polygons.length ≤ i - o.polygons.length ∧ i - o.polygons.length < b.polygons.length + l.length
      · have h3 : o.polygons.length + b.polygons.length ≤ i ∧ i < o.polygons.length + b.polygons.length + l.length := by omega
        simp [h1, h2, h3]
      · have h3 : ¬ (o.polygons.length + b.polygons.length ≤ i ∧ i < o.polygons.length + b.polygons.length + l.length) := by omega
        simp only [if_neg h2, if_neg h3]
    · have h3 : ¬ (o.polygons.length + b.polygons.length ≤ i ∧ i < o.polygons.length + b.polygons.length + l.length) := by omega
      simp only [if_neg h3]
      rw [if_neg (by simp [h1]), if_neg (by simp [h1])]

theorem fold_merge (o : Out) : ∀ (l : List Nat) (b : Out),
    (l.foldlM (fun o f => (facePolygons ps st base reg part f).map (fun p => add smF f (Boundary.entry st f) p o)) b).map (merge o) =
      l.foldlM (fun o f => (facePolygons ps st base reg part f).map (fun p => add smF f (Boundary.entry st f) p o)) (merge o b) := by
  intro l
  induction l with
  | nil => intro b; rfl
  | cons f l ih =>
    intro b
    rw [List.foldlM_cons, List.foldlM_cons]
    cases h : facePolygons ps st base reg part f with
    | none => rfl
    | some p =>
      simp only [Option.map_some, Option.bind_eq_bind, Option.bind_some]
      rw [ih, merge_add]

theorem merge_empty (o : Out) : merge o Out.empty = o := by
  unfold merge Out.empty
  simp

theorem parallel_fold : ∀ (blocks : List (List Nat)) (o : Out), blocks.foldlM (fun o block => (sequential ps st smF base reg part block).map (merge o)) o =
    blocks.flatten.foldlM (fun o f => (facePolygons ps st base reg part f).map (fun p => add smF f (Boundary.entry st f) p o)) o := by
  intro blocks
  induction blocks with
  | nil => intro o; rfl
  | cons b blocks ih =>
    intro o
    rw [List.foldlM_cons, List.flatten_cons, List.foldlM_append]
    unfold sequential
    rw [fold_merge, merge_empty]
    cases h : b.foldlM (fun o f => (facePolygons ps st base reg part f).map (fun p => add smF f (Boundary.entry st f) p o)) o with
    | none => rfl
    | some o' =>
      simp only [Option.bind_eq_bind, Option.bind_some]
      exact ih o'

theorem listed_empty {c : CutEdges.St P} {poly : Nat → List (List Nat)} : Listed smF c [] poly Out.empty := by
  refine ⟨rfl, fun i => by simp [Out.empty], ?_, ?_, rfl⟩ <;> simp [Out.empty]

theorem listed_add {c : CutEdges.St P} {faces : List Nat} {poly : Nat → List (List Nat)} {o : Out} (L : Listed smF c faces poly o) {f : Nat}
    (he : Boundary.entry st f = true ↔ c.faceEdges f ≠ []) : Listed smF c (faces ++ [f]) poly (add smF f (Boundary.entry st f) (poly f) o) := by
  have hlen : (faces.flatMap (fun f => (poly f).map (fun _ => f))).length = o.polygons.length := by
    rw [L.polygons]; simp [List.length_flatMap]
  have hnone : ∀ i, o.polygons.length ≤ i → o.faceOf i = none := by
    intro i hi; rw [L.faceOf]; exact List.getElem?_eq_none (by omega)
  have hface : ∀ i, (add smF f (Boundary.entry st f) (poly f) o).faceOf i = ((faces ++ [f]).flatMap (fun f => (poly f).map (fun _ => f)))[i]? := by
    intro i
    unfold add number
    simp only
    rw [List.flatMap_append]
    by_cases h : i < o.polygons.length
    · rw [if_neg (by omega), List.getElem?_append_left (by omega), L.faceOf]
    · rw [List.getElem?_append_right (by omega), hlen]
      simp only [List.flatMap_cons, List.flatMap_nil, List.append_nil, List.getElem?_map]
      by_cases h2 : i < o.polygons.length + (poly f).length
      · rw [if_pos (by omega), List.getElem?_eq_getElem (by omega)]; rfl
      · rw [if_neg (by omega), List.getElem?_eq_none (by omega), hnone i (by omega)]; rfl
  have hval : ∀ i g, (add smF f (Boundary.entry st f) (poly f) o).faceOf i = some g ↔ o.faceOf i = some g ∨ (g = f ∧ o.polygons.length ≤ i ∧ i < o.polygons.length + (poly f).length) := by
    intro i g
    unfold add number
    simp only
    by_cases h : o.polygons.length ≤ i ∧ i < o.polygons.length + (poly f).length
    · rw [if_pos h, hnone i h.1]; simp [h, eq_comm]
    · rw [if_neg h]; simp [h]
  have hlt : ∀ i g, o.faceOf i = some g → i < o.polygons.length := by
    intro i g h
    by_contra hc
    rw [hnone i (by omega)] at h; cases h
  have tab : ∀ (q : Nat → Prop) [DecidablePred q] (old : List Nat), (old.Pairwise (· < ·) ∧ ∀ i, i ∈ old ↔ ∃ g, o.faceOf i = some g ∧ q g ∧ c.faceEdges g ≠ []) →
      ((if Boundary.entry st f = true ∧ q f then old ++ List.range' o.polygons.length (poly f).length else old).Pairwise (· < ·) ∧
      ∀ i, i ∈ (if Boundary.entry st f = true ∧ q f then old ++ List.range' o.polygons.length (poly f).length else old) ↔
        ∃ g, (add smF f (Boundary.entry st f) (poly f) o).faceOf i = some g ∧ q g ∧ c.faceEdges g ≠ []) := by
    intro q _ old ⟨h1, h2⟩
    by_cases hq : Boundary.entry st f = true ∧ q f
    · rw [if_pos hq]
      refine ⟨List.pairwise_append.2 ⟨h1, List.pairwise_lt_range', ?_⟩, ?_⟩
      · intro a ha b hb
        obtain ⟨g, hg, -⟩ := (h2 a).1 ha
        have := hlt a g hg
        rw [List.mem_range'] at hb
        obtain ⟨j, -, rfl⟩ := hb
        omega
      · intro i
        rw [List.mem_append, h2]
        constructor
        · rintro (⟨g, hg, hq'⟩ | hi)
          · exact ⟨g, (hval i g).2 (.inl hg), hq'⟩
          · rw [List.mem_range'] at hi
            obtain ⟨j, hj, rfl⟩ := hi
            exact ⟨f, (hval _ f).2 (.inr ⟨rfl, by omega, by omega⟩), hq.2, he.1 hq.1⟩
        · rintro ⟨g, hg, hq'⟩
          rcases (hval i g).1 hg with h | ⟨rfl, h3, h4⟩
          · exact .inl ⟨g, h, hq'⟩
          · right; rw [List.mem_range']; exact ⟨i - o.polygons.length, by omega, by omega⟩
    · rw [if_neg hq]
      refine ⟨h1, fun i => ?_⟩
      rw [h2]
      constructor
      · rintro ⟨g, hg, hq'⟩; exact ⟨g, (hval i g).2 (.inl hg), hq'⟩
      · rintro ⟨g, hg, hq'⟩
        rcases (hval i g).1 hg with h | ⟨rfl, h3, h4⟩
        · exact ⟨g, h, hq'⟩
        · exact absurd ⟨he.2 hq'.2, hq'.1⟩ hq
  refine ⟨?_, hface, tab (fun g => g < smF) _ L.sm, ?_, ?_⟩
  · unfold add; simp only; rw [L.polygons]; simp
  · have := tab (fun g => smF ≤ g) _ L.cm
    have hcm : (add smF f (Boundary.entry st f) (poly f) o).cm = if Boundary.entry st f = true ∧ smF ≤ f then o.cm ++ List.range' o.polygons.length (poly f).length else o.cm := by
      unfold add; simp only [Nat.not_lt]
    rw [hcm]; exact this
  · unfold add
    simp only
    rw [L.smCount, List.filter_append, List.flatMap_append, List.length_append]
    by_cases h : f < smF <;> simp [h]

/-- The tables when every face has its polygons. -/
theorem listed_all {c : CutEdges.St P} {poly : Nat → List (List Nat)} : ∀ (todo faces : List Nat) (o : Out), Listed smF c faces poly o →
    (∀ f ∈ todo, facePolygons ps st base reg part f = some (poly f) ∧ (Boundary.entry st f = true ↔ c.faceEdges f ≠ [])) →
    ∃ o', todo.foldlM (fun o f => (facePolygons ps st base reg part f).map (fun p => add smF f (Boundary.entry st f) p o)) o = some o' ∧ Listed smF c (faces ++ todo) poly o' := by
  intro todo
  induction todo with
  | nil => intro faces o L _; exact ⟨o, rfl, by simpa using L⟩
  | cons f todo ih =>
    intro faces o L h
    obtain ⟨h1, h2⟩ := h f (by simp)
    obtain ⟨o', e, L'⟩ := ih (faces ++ [f]) _ (listed_add L h2) (fun x hx => h x (by simp [hx]))
    refine ⟨o', ?_, by simpa using L'⟩
    rw [List.foldlM_cons, h1]
    exact e

end Mcut.Trace
