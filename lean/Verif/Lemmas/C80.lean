import Verif.Spec.C80
import Mathlib.Data.List.Nodup
import Mathlib.Data.List.Perm.Subperm
import Mathlib.Tactic.ByContra

/-! Lemmas for C80: the colouring. -/
namespace Mcut.Patches

theorem entry_pos {adj : List (Nat × Nat)} {r c : Nat} : 0 < entry adj r c ↔ r ≠ c ∧ ((r, c) ∈ adj ∨ (c, r) ∈ adj) := by
  unfold entry
  simp only [List.contains_eq_mem, decide_eq_true_eq]
  split <;> simp_all

theorem square_pos {n : Nat} {adj : List (Nat × Nat)} {r c : Nat} : 0 < square n adj r c ↔ ∃ k, k < n ∧ 0 < entry adj r k ∧ 0 < entry adj k c := by
  unfold square
  rw [Nat.pos_iff_ne_zero, ne_eq, List.sum_eq_zero_iff_forall_eq_nat]
  simp only [List.mem_map, List.mem_range, forall_exists_index, and_imp, forall_apply_eq_imp_iff₂]
  push Not
  refine exists_congr (fun k => and_congr Iff.rfl ?_)
  rw [← Nat.pos_iff_ne_zero]
  exact ⟨fun h => ⟨Nat.pos_of_mul_pos_right h, Nat.pos_of_mul_pos_left h⟩, fun h => Nat.mul_pos h.1 h.2⟩


/-- The queue after a round: what was in it stays, in front; new ones are appended. -/
theorem columns {n : Nat} {adj : List (Nat × Nat)} {red : List Nat} {row : Nat} : ∀ (l q : List Nat), q.Nodup →
    ∃ r, l.foldl (column n adj red row) q = q ++ r ∧ (q ++ r).Nodup ∧ (∀ x ∈ r, x ∈ l ∧ row ≠ x ∧ 0 < square n adj row x ∧ x ∉ red) ∧
      ∀ x ∈ l, row ≠ x → 0 < square n adj row x → x ∈ red ∨ x ∈ q ++ r := by
  intro l
  induction l with
  | nil => intro q h; exact ⟨[], by simp, by simpa using h, by simp, by simp⟩
  | cons y l ih =>
    intro q h
    rw [List.foldl_cons]
    by_cases hc : row ≠ y ∧ 0 < square n adj row y ∧ red.contains y = false ∧ q.contains y = false
    · have e : column n adj red row q y = q ++ [y] := by unfold column; rw [if_pos hc]
      rw [e]
      obtain ⟨c1, c2, c3, c4⟩ := hc
      rw [List.contains_eq_mem, decide_eq_false_iff_not] at c3 c4
      obtain ⟨r, h1, h2, h3, h4⟩ := ih (q ++ [y]) (by rw [List.nodup_append]; exact ⟨h, by simp, by simp; intro a ha e; exact c4 (e ▸ ha)⟩)
      refine ⟨y :: r, by rw [h1]; simp, by simpa using h2, ?_, ?_⟩
      · intro x hx
        rcases List.mem_cons.1 hx with rfl | hx
        · exact ⟨List.mem_cons_self, c1, c2, c3⟩
        · obtain ⟨k1, k2⟩ := h3 x hx
          exact ⟨List.mem_cons_of_mem _ k1, k2⟩
      · intro x hx k1 k2
        rcases List.mem_cons.1 hx with rfl | hx
        · right; simp
        · rcases h4 x hx k1 k2 with h | h
          · exact .inl h
          · right; simpa using h
    · have e : column n adj red row q y = q := by unfold column; rw [if_neg hc]
      rw [e]
      obtain ⟨r, h1, h2, h3, h4⟩ := ih q h
      refine ⟨r, h1, h2, fun x hx => ⟨List.mem_cons_of_mem _ (h3 x hx).1, (h3 x hx).2⟩, ?_⟩
      intro x hx k1 k2
      rcases List.mem_cons.1 hx with rfl | hx
      · by_cases a : x ∈ red
        · exact .inl a
        · by_cases b : x ∈ q
          · exact .inr (List.mem_append_left _ b)
          · exact absurd ⟨k1, k2, by simpa using a, by simpa using b⟩ hc
      · exact h4 x hx k1 k2

/-- What holds before each round. -/
structure RedInv (n : Nat) (adj : List (Nat × Nat)) (S : Nat → Prop) (queue red : List Nat) : Prop where
  nodup : (red ++ queue).Nodup
  lt : ∀ x ∈ red ++ queue, x < n ∧ S x
  closed : ∀ x ∈ red, ∀ y, y < n → x ≠ y → 0 < square n adj x y → y ∈ red ++ queue
  zero : 0 ∈ red ++ queue

theorem redLoop_spec {n : Nat} {adj : List (Nat × Nat)} {S : Nat → Prop} (hS : ∀ x y, S x → x ≠ y → 0 < square n adj x y → S y) :
    ∀ (k : Nat) (queue red : List Nat), RedInv n adj S queue red → n ≤ k + red.length → ∃ r, redLoop n adj k queue red = some r ∧ RedInv n adj S [] r := by
  intro k
  induction k with
  | zero =>
    intro queue red I hk
    cases queue with
    | nil => exact ⟨red, by unfold redLoop; rfl, I⟩
    | cons a q =>
      exfalso
      have : (red ++ a :: q).length ≤ (List.range n).length := ((I.nodup).subperm (fun x hx => List.mem_range.2 (I.lt x hx).1)).length_le
      simp only [List.length_append, List.length_cons, List.length_range] at this
      omega
  | succ k ih =>
    intro queue red I hk
    cases queue with
    | nil => exact ⟨red, by unfold redLoop; rfl, I⟩
    | cons row q =>
      unfold redLoop
      have hnd : (row :: q).Nodup := (List.nodup_append.1 I.nodup).2.1
      obtain ⟨r, h1, h2, h3, h4⟩ := columns (n := n) (adj := adj) (red := red ++ [row]) (row := row) (List.range n) (row :: q) hnd
      rw [h1]
      have ht : (row :: q ++ r).tail = q ++ r := rfl
      rw [ht]
      have hrow := I.lt row (by simp)
      refine ih _ _ ?_ (by simp; omega)
      refine ⟨?_, ?_, ?_, ?_⟩
      · have e : red ++ [row] ++ (q ++ r) = (red ++ row :: q) ++ r := by simp
        rw [e, List.nodup_append]
        refine ⟨I.nodup, (List.nodup_append.1 h2).2.1, ?_⟩
        intro a ha b hb e
        subst e
        rcases List.mem_append.1 ha with ha | ha
        · exact (h3 a hb).2.2.2 (List.mem_append_left _ ha)
        · exact (List.nodup_append.1 h2).2.2 a ha a hb rfl
      · intro x hx
        have hx' : x ∈ red ++ row :: q ∨ x ∈ r := by simp only [List.mem_append, List.mem_cons, List.not_mem_nil, or_false] at hx ⊢; tauto
        rcases hx' with h | h
        · exact I.lt x h
        · obtain ⟨k1, k2, k3, -⟩ := h3 x h
          exact ⟨List.mem_range.1 k1, hS row x hrow.2 k2 k3⟩
      · intro x hx y hy hne hsq
        rcases List.mem_append.1 hx with h | h
        · have := I.closed x h y hy hne hsq
          simp only [List.mem_append, List.mem_cons, List.not_mem_nil, or_false] at this ⊢; tauto
        · rw [List.mem_singleton] at h
          subst h
          have := h4 y (List.mem_range.2 hy) hne hsq
          simp only [List.mem_append, List.mem_cons, List.not_mem_nil, or_false] at this ⊢; tauto
      · have := I.zero
        simp only [List.mem_append, List.mem_cons, List.not_mem_nil, or_false] at this ⊢; tauto

/-- In a connected graph with a labelling that changes along every edge, the red nodes are those with the label of node 0. -/
theorem redOf_spec {n : Nat} {adj : List (Nat × Nat)} {lab : Nat → Prop} (hn : 0 < n) (hlt : ∀ e ∈ adj, e.1 < n ∧ e.2 < n) (hlab : ∀ e ∈ adj, lab e.1 ↔ ¬ lab e.2)
    (hcon : ∀ k, k < n → Relation.EqvGen (fun a b => (a, b) ∈ adj) 0 k) :
    ∃ red, redOf n adj = some red ∧ red.Nodup ∧ ∀ k, k ∈ red ↔ k < n ∧ (lab k ↔ lab 0) := by
  have flip : ∀ a b, 0 < entry adj a b → (lab a ↔ ¬ lab b) := by
    intro a b h
    rcases (entry_pos.1 h).2 with h | h
    · exact hlab _ h
    · have := hlab _ h
      simp only at this
      by_cases x : lab a <;> by_cases y : lab b <;> simp_all
  have sym : ∀ a b, 0 < entry adj a b → 0 < entry adj b a := by
    intro a b h
    have := entry_pos.1 h
    exact entry_pos.2 ⟨Ne.symm this.1, this.2.symm⟩
  have edge : ∀ a b, (a, b) ∈ adj → 0 < entry adj a b := by
    intro a b h
    refine entry_pos.2 ⟨?_, .inl h⟩
    intro e
    subst e
    have := hlab _ h
    simp only at this
    by_cases x : lab a <;> simp_all
  obtain ⟨red, h1, I⟩ := redLoop_spec (n := n) (adj := adj) (S := fun k => lab k ↔ lab 0) (fun x y hx _ h => by
    obtain ⟨k, -, a, b⟩ := square_pos.1 h
    have := flip _ _ a
    have := flip _ _ b
    by_cases u : lab x <;> by_cases v : lab y <;> by_cases w : lab k <;> by_cases z : lab 0 <;> simp_all) n [0] [] ⟨by simp, by simp [hn], by simp, by simp⟩ (by simp)
  have hnd := I.nodup
  have hl := I.lt
  have hc := I.closed
  have hz := I.zero
  rw [List.append_nil] at hnd hl hc hz
  refine ⟨red, h1, hnd, fun k => ⟨fun h => hl k h, ?_⟩⟩
  rintro ⟨hk, hk'⟩
  -- walking along the edges
  have sym' : ∀ a b, Relation.ReflTransGen (fun a b => 0 < entry adj a b) a b → Relation.ReflTransGen (fun a b => 0 < entry adj a b) b a := by
    intro a b r
    induction r with
    | refl => exact .refl
    | tail _ h ih => exact Relation.ReflTransGen.head (sym _ _ h) ih
  have walk : ∀ a b, Relation.EqvGen (fun a b => (a, b) ∈ adj) a b → Relation.ReflTransGen (fun a b => 0 < entry adj a b) a b := by
    intro a b r
    induction r with
    | rel x y h => exact .single (edge _ _ h)
    | refl x => exact .refl
    | symm x y _ ih => exact sym' _ _ ih
    | trans x y z _ _ a b => exact a.trans b
  have go : ∀ b, Relation.ReflTransGen (fun a b => 0 < entry adj a b) 0 b → ((lab b ↔ lab 0) → b ∈ red) ∧ (¬ (lab b ↔ lab 0) → ∃ j ∈ red, 0 < entry adj j b) := by
    intro b r
    induction r with
    | refl => exact ⟨fun _ => hz, fun h => absurd Iff.rfl h⟩
    | @tail x y _ h ih =>
      have fl := flip _ _ h
      constructor
      · intro hy
        obtain ⟨j, j1, j2⟩ := ih.2 (by intro hx; by_cases u : lab x <;> by_cases v : lab y <;> by_cases z : lab 0 <;> simp_all)
        by_cases e : j = y
        · rw [← e]; exact j1
        · have hyn : y < n := by
            rcases (entry_pos.1 h).2 with h | h
            · exact (hlt _ h).2
            · exact (hlt _ h).1
          have hxn : x < n := by
            rcases (entry_pos.1 h).2 with h | h
            · exact (hlt _ h).1
            · exact (hlt _ h).2
          exact hc j j1 y hyn e (square_pos.2 ⟨x, hxn, j2, h⟩)
      · intro hy
        exact ⟨x, ih.1 (by by_cases u : lab x <;> by_cases v : lab y <;> by_cases z : lab 0 <;> simp_all), h⟩
  exact (go k (walk _ _ (hcon k hk))).1 hk'

end Mcut.Patches
