import Verif.Spec.C79
import Mathlib.Data.List.Perm.Subperm
import Mathlib.Data.List.NodupEquivFin

/-! Lemmas for C79: the flood fill. -/
namespace Mcut.Patches
open Mcut.Hmesh
variable {polys : List (List Nat)} {T : Nat → List Nat} {smCount numCut : Nat}

/-- What the table says about the edges of the cut mesh that are not cut edges. -/
structure Net (polys : List (List Nat)) (smCount numCut : Nat) (T : Nat → List Nat) : Prop where
  even : ∃ k, numCut = 2 * k
  head : ∀ i x, InCut polys smCount i x → numCut ≤ x → ∀ j, (T (opposite x)).head? = some j ↔ InCut polys smCount j (opposite x)

theorem opp_opp (x : Nat) : opposite (opposite x) = x := by unfold opposite; split <;> split <;> omega

theorem Net.opp_le (N : Net polys smCount numCut T) {x : Nat} (h : numCut ≤ x) : numCut ≤ opposite x := by
  obtain ⟨k, hk⟩ := N.even
  unfold opposite; split <;> omega

theorem Net.symm (N : Net polys smCount numCut T) {i j : Nat} (h : Beside polys smCount numCut i j) : Beside polys smCount numCut j i := by
  obtain ⟨x, h1, h2, h3⟩ := h
  exact ⟨opposite x, h2, by rw [opp_opp]; exact h1, N.opp_le h3⟩

theorem beside_lt {i j : Nat} (h : Beside polys smCount numCut i j) : smCount ≤ j ∧ j < polys.length := by
  obtain ⟨x, -, ⟨h1, p, hp, -⟩, -⟩ := h
  exact ⟨h1, (List.getElem?_eq_some_iff.1 hp).1⟩

/-- Through one polygon. -/
theorem enqueue_all (N : Net polys smCount numCut T) {i : Nat} {p : List Nat} (hi : smCount ≤ i) (hp : polys[i]? = some p) : ∀ (l : List Nat) (queue seen : List Nat), l ⊆ p →
    ∃ new, l.foldl (enqueue T numCut) (queue, seen) = (queue ++ new, seen ++ new) ∧ new.Nodup ∧ (∀ j ∈ new, j ∉ seen ∧ Beside polys smCount numCut i j) ∧
      ∀ x ∈ l, numCut ≤ x → ∀ j, InCut polys smCount j (opposite x) → j ∈ seen ∨ j ∈ new := by
  intro l
  induction l with
  | nil => intro queue seen _; exact ⟨[], by simp, by simp, by simp, by simp⟩
  | cons x l ih =>
    intro queue seen hl
    have hxp : x ∈ p := hl List.mem_cons_self
    have hin : InCut polys smCount i x := ⟨hi, p, hp, hxp⟩
    have hl' : l ⊆ p := fun y hy => hl (List.mem_cons_of_mem _ hy)
    rw [List.foldl_cons]
    have skip : enqueue T numCut (queue, seen) x = (queue, seen) → (numCut ≤ x → ∀ j, InCut polys smCount j (opposite x) → j ∈ seen) →
        ∃ new, l.foldl (enqueue T numCut) (enqueue T numCut (queue, seen) x) = (queue ++ new, seen ++ new) ∧ new.Nodup ∧ (∀ j ∈ new, j ∉ seen ∧ Beside polys smCount numCut i j) ∧
          ∀ y ∈ x :: l, numCut ≤ y → ∀ j, InCut polys smCount j (opposite y) → j ∈ seen ∨ j ∈ new := by
      intro e k
      rw [e]
      obtain ⟨new, n1, n2, n3, n4⟩ := ih queue seen hl'
      refine ⟨new, n1, n2, n3, ?_⟩
      intro y hy hc j hj
      rcases List.mem_cons.1 hy with rfl | hy
      · exact .inl (k hc j hj)
      · exact n4 y hy hc j hj
    by_cases hc : numCut ≤ x
    · cases ht : (T (opposite x)).head? with
      | none =>
        refine skip (by unfold enqueue; rw [if_pos hc, ht]; rfl) (fun _ j hj => ?_)
        rw [(N.head i x hin hc j).2 hj] at ht; cases ht
      | some j0 =>
        have hb := (N.head i x hin hc j0).1 ht
        by_cases hs : j0 ∈ seen
        · refine skip (by unfold enqueue; rw [if_pos hc, ht, Option.elim_some, if_pos (by simpa using hs)]) (fun _ j hj => ?_)
          rw [(N.head i x hin hc j).2 hj] at ht
          rw [Option.some.inj ht]; exact hs
        · have e : enqueue T numCut (queue, seen) x = (queue ++ [j0], seen ++ [j0]) := by
            unfold enqueue; rw [if_pos hc, ht, Option.elim_some, if_neg (by simpa using hs)]
          rw [e]
          obtain ⟨new, n1, n2, n3, n4⟩ := ih (queue ++ [j0]) (seen ++ [j0]) hl'
          refine ⟨j0 :: new, by rw [n1]; simp, ?_, ?_, ?_⟩
          · rw [List.nodup_cons]
            exact ⟨fun h => (n3 j0 h).1 (by simp), n2⟩
          · intro j hj
            rcases List.mem_cons.1 hj with rfl | hj
            · exact ⟨hs, x, hin, hb, hc⟩
            · exact ⟨fun h => (n3 j hj).1 (by simp [h]), (n3 j hj).2⟩
          · intro y hy hy' j hj
            rcases List.mem_cons.1 hy with rfl | hy
            · rw [(N.head i y hin hc j).2 hj] at ht
              exact .inr (by rw [Option.some.inj ht]; simp)
            · rcases n4 y hy hy' j hj with h | h
              · rcases List.mem_append.1 h with h | h
                · exact .inl h
                · exact .inr (by rw [List.mem_singleton] at h; simp [h])
              · exact .inr (List.mem_cons_of_mem _ h)
    · exact skip (by unfold enqueue; rw [if_neg hc]) (fun h => absurd h hc)

theorem nodup_bound {l : List Nat} {n : Nat} (hd : l.Nodup) (h : ∀ x ∈ l, x < n) : l.length ≤ n := by
  have : l.Subperm (List.range n) := hd.subperm (fun x hx => List.mem_range.2 (h x hx))
  simpa using this.length_le

/-- The flood fill, from `j0`: the new patch is the class of `j0`, if what has been seen before (`old`) is complete. -/
theorem flood_spec (N : Net polys smCount numCut T) {j0 : Nat} {old : List Nat} (h0 : smCount ≤ j0 ∧ j0 < polys.length) : ∀ (k : Nat) (queue seen patch : List Nat),
    (patch ++ queue).Nodup → (∀ j ∈ patch ++ queue, j ∉ old ∧ smCount ≤ j ∧ j < polys.length ∧ SamePatch polys smCount numCut j0 j) →
    (∀ j, j ∈ seen ↔ j ∈ old ∨ j ∈ patch ++ queue) → (∀ i ∈ patch, ∀ j, Beside polys smCount numCut i j → j ∈ seen) → polys.length ≤ k + patch.length →
    ∃ patch' seen', flood polys T numCut k queue seen patch = some (patch', seen') ∧ patch'.Nodup ∧ patch ++ queue ⊆ patch' ∧
      (∀ j ∈ patch', j ∉ old ∧ smCount ≤ j ∧ j < polys.length ∧ SamePatch polys smCount numCut j0 j) ∧ (∀ j, j ∈ seen' ↔ j ∈ old ∨ j ∈ patch') ∧
      ∀ i ∈ patch', ∀ j, Beside polys smCount numCut i j → j ∈ seen' := by
  intro k
  induction k with
  | zero =>
    intro queue seen patch hd hm hs hc hk
    cases queue with
    | nil =>
      rw [List.append_nil] at hd hm hs
      exact ⟨patch, seen, by unfold flood; rfl, hd, by simp, hm, hs, hc⟩
    | cons j q =>
      have := nodup_bound hd (fun x hx => (hm x hx).2.2.1)
      rw [List.length_append, List.length_cons] at this
      omega
  | succ k ih =>
    intro queue seen patch hd hm hs hc hk
    cases queue with
    | nil =>
      rw [List.append_nil] at hd hm hs
      exact ⟨patch, seen, by unfold flood; rfl, hd, by simp, hm, hs, hc⟩
    | cons i q =>
      obtain ⟨i1, i2, i3, i4⟩ := hm i (by simp)
      obtain ⟨p, hp⟩ : ∃ p, polys[i]? = some p := ⟨_, List.getElem?_eq_getElem i3⟩
      obtain ⟨new, n1, n2, n3, n4⟩ := enqueue_all N i2 hp p q seen (List.Subset.refl _)
      have hnot : ∀ j ∈ new, j ∉ old ∧ j ∉ patch ++ i :: q := fun j hj => not_or.1 (fun h => (n3 j hj).1 ((hs j).2 h))
      have e : flood polys T numCut (k + 1) (i :: q) seen patch = flood polys T numCut k (q ++ new) (seen ++ new) (patch ++ [i]) := by
        rw [flood, hp, Option.bind_some, n1]
      rw [e]
      have ea : patch ++ [i] ++ (q ++ new) = patch ++ i :: q ++ new := by simp
      obtain ⟨patch', seen', r1, r2, r3, r4, r5, r6⟩ := ih (q ++ new) (seen ++ new) (patch ++ [i]) (by
        rw [ea, List.nodup_append']
        exact ⟨hd, n2, fun a ha hb => (hnot a hb).2 ha⟩) (by
        intro j hj
        rw [ea] at hj
        rcases List.mem_append.1 hj with hj | hj
        · exact hm j hj
        · have b := (n3 j hj).2
          obtain ⟨b1, b2⟩ := beside_lt b
          exact ⟨(hnot j hj).1, b1, b2, .trans _ _ _ i4 (.rel _ _ b)⟩) (by
        intro j
        rw [ea, List.mem_append, hs j, List.mem_append (s := patch ++ i :: q)]
        exact or_assoc) (by
        intro a ha j hj
        rcases List.mem_append.1 ha with ha | ha
        · exact List.mem_append_left _ (hc a ha j hj)
        · rw [List.mem_singleton] at ha
          subst ha
          obtain ⟨x, ⟨-, p', hp', hx⟩, x2, x3⟩ := hj
          rw [hp] at hp'
          obtain rfl := Option.some.inj hp'
          exact List.mem_append.2 (n4 x hx x3 j x2)) (by rw [List.length_append, List.length_singleton]; omega)
      refine ⟨patch', seen', r1, r2, fun j hj => r3 ?_, r4, r5, r6⟩
      rw [ea]; exact List.mem_append_left _ hj

/-- What has been found after some of the seeds. -/
structure Sofar (polys : List (List Nat)) (smCount numCut : Nat) (s : Found) : Prop where
  whole : ∀ l ∈ s.patches, l.Nodup ∧ (∀ i ∈ l, smCount ≤ i ∧ i < polys.length) ∧ ∀ i ∈ l, ∀ j, j ∈ l ↔ SamePatch polys smCount numCut i j
  cut : ∀ l ∈ s.patches, ∃ i ∈ l, AtCut polys smCount numCut i
  disjoint : s.patches.Pairwise List.Disjoint
  seen : ∀ j, j ∈ s.seen ↔ ∃ l ∈ s.patches, j ∈ l
  table : TableOf s.patches s.table
  starts : StartsOf polys numCut s.patches s.starts

theorem class_closed {R : Nat → Nat → Prop} {S : Nat → Prop} (h : ∀ i j, R i j → (S i ↔ S j)) {i j : Nat} (r : Relation.EqvGen R i j) : S i ↔ S j := by
  induction r with
  | rel x y r => exact h x y r
  | refl x => exact Iff.rfl
  | symm x y _ ih => exact ih.symm
  | trans x y z _ _ a b => exact a.trans b

theorem patchOf_none {table : List (Nat × Nat)} {j : Nat} : (patchOf table j).isSome = false ↔ patchOf table j = none := by
  cases patchOf table j <;> simp

theorem patchOf_append (l : List Nat) (k : Nat) (table : List (Nat × Nat)) (j : Nat) :
    patchOf (l.reverse.map (fun j => (j, k)) ++ table) j = if j ∈ l then some k else patchOf table j := by
  unfold patchOf
  rw [List.find?_append, List.find?_map]
  by_cases h : j ∈ l
  · rw [if_pos h]
    have : (List.find? ((fun e : Nat × Nat => e.1 == j) ∘ fun j => (j, k)) l.reverse) = some j := by
      rw [show ((fun e : Nat × Nat => e.1 == j) ∘ fun j => (j, k)) = (fun x => x == j) from rfl]
      cases hf : List.find? (fun x => x == j) l.reverse with
      | none => exact absurd (List.mem_reverse.2 h) (fun hm => by have := List.find?_eq_none.1 hf j hm; simp at this)
      | some y => have := List.find?_some hf; simp at this; rw [this]
    rw [this]; rfl
  · rw [if_neg h]
    have : (List.find? ((fun e : Nat × Nat => e.1 == j) ∘ fun j => (j, k)) l.reverse) = none := by
      rw [List.find?_eq_none]
      intro x hx hxj
      rw [List.mem_reverse] at hx
      simp at hxj
      exact h (hxj ▸ hx)
    rw [this]; rfl

theorem grow_spec (N : Net polys smCount numCut T) {s : Found} (I : Sofar polys smCount numCut s) {x : Nat × Nat} {p : List Nat} {y : Nat} (hx : smCount ≤ x.1) (hp : polys[x.1]? = some p)
    (hy : p[x.2]? = some y) (hcut : y < numCut) : ∃ s', grow polys T numCut s x = some s' ∧ Sofar polys smCount numCut s' ∧ (∃ l ∈ s'.patches, x.1 ∈ l) ∧ s.patches ⊆ s'.patches := by
  have hlt : x.1 < polys.length := (List.getElem?_eq_some_iff.1 hp).1
  unfold grow
  cases hk : patchOf s.table x.1 with
  | some k =>
    obtain ⟨l, h1, h2⟩ := (I.table _ _).1 hk
    exact ⟨s, by simp, I, ⟨l, List.mem_of_getElem? h1, h2⟩, List.Subset.refl _⟩
  | none =>
    have hold : x.1 ∉ s.seen := by
      intro h
      obtain ⟨l, h1, h2⟩ := (I.seen _).1 h
      obtain ⟨k, hk'⟩ := List.mem_iff_getElem?.1 h1
      rw [(I.table _ k).2 ⟨l, hk', h2⟩] at hk; cases hk
    obtain ⟨patch, seen', e, r1, r2, r3, r4, r5⟩ := flood_spec N (old := s.seen) ⟨hx, hlt⟩ polys.length [x.1] (s.seen ++ [x.1]) [] (by simp)
      (by
        intro j hj
        rw [List.nil_append, List.mem_singleton] at hj
        subst hj
        exact ⟨hold, hx, hlt, .refl _⟩) (by intro j; simp) (by intro i h; cases h) (by omega)
    rw [e]
    have hmem : x.1 ∈ patch := r2 (by simp)
    -- the old ones are complete
    have cl : ∀ i j, Beside polys smCount numCut i j → (i ∈ s.seen ↔ j ∈ s.seen) := by
      intro i j hb
      rw [I.seen, I.seen]
      constructor
      · rintro ⟨l, h1, h2⟩; exact ⟨l, h1, ((I.whole l h1).2.2 i h2 j).2 (.rel _ _ hb)⟩
      · rintro ⟨l, h1, h2⟩; exact ⟨l, h1, ((I.whole l h1).2.2 j h2 i).2 (.symm _ _ (.rel _ _ hb))⟩
    have cp : ∀ i j, Beside polys smCount numCut i j → (i ∈ patch ↔ j ∈ patch) := by
      have one : ∀ i j, Beside polys smCount numCut i j → i ∈ patch → j ∈ patch := by
        intro i j hb hi
        rcases (r4 j).1 (r5 i hi j hb) with h | h
        · exact absurd ((cl i j hb).2 h) (r3 i hi).1
        · exact h
      exact fun i j hb => ⟨one i j hb, one j i (N.symm hb)⟩
    have hcls : ∀ i ∈ patch, ∀ j, j ∈ patch ↔ SamePatch polys smCount numCut i j := by
      intro i hi j
      constructor
      · intro hj; exact .trans _ _ _ (.symm _ _ (r3 i hi).2.2.2) (r3 j hj).2.2.2
      · intro r; exact (class_closed cp r).1 hi
    refine ⟨⟨s.patches ++ [patch], patch.reverse.map (fun j => (j, s.patches.length)) ++ s.table, s.starts ++ [x], seen'⟩, by simp, ⟨?_, ?_, ?_, ?_, ?_, ?_⟩, ⟨patch, by simp, hmem⟩, fun l hl => List.mem_append_left _ hl⟩
    · intro l hl
      rcases List.mem_append.1 hl with hl | hl
      · exact I.whole l hl
      · rw [List.mem_singleton] at hl
        subst hl
        exact ⟨r1, fun i hi => ⟨(r3 i hi).2.1, (r3 i hi).2.2.1⟩, hcls⟩
    · intro l hl
      rcases List.mem_append.1 hl with hl | hl
      · exact I.cut l hl
      · rw [List.mem_singleton] at hl
        subst hl
        exact ⟨x.1, hmem, y, ⟨hx, p, hp, List.mem_of_getElem? hy⟩, hcut⟩
    · rw [List.pairwise_append]
      refine ⟨I.disjoint, List.pairwise_singleton _ _, ?_⟩
      intro l hl l' hl'
      rw [List.mem_singleton] at hl'
      subst hl'
      intro a ha hb
      exact (r3 a hb).1 ((I.seen a).2 ⟨l, hl, ha⟩)
    · intro j
      show j ∈ seen' ↔ _
      rw [r4 j, I.seen]
      constructor
      · rintro (⟨l, h1, h2⟩ | h)
        · exact ⟨l, List.mem_append_left _ h1, h2⟩
        · exact ⟨patch, by simp, h⟩
      · rintro ⟨l, h1, h2⟩
        rcases List.mem_append.1 h1 with h1 | h1
        · exact .inl ⟨l, h1, h2⟩
        · rw [List.mem_singleton] at h1; subst h1; exact .inr h2
    · intro i k
      show patchOf (patch.reverse.map (fun j => (j, s.patches.length)) ++ s.table) i = some k ↔ ∃ l, (s.patches ++ [patch])[k]? = some l ∧ i ∈ l
      rw [patchOf_append]
      by_cases hi : i ∈ patch
      · rw [if_pos hi, Option.some.injEq]
        constructor
        · rintro rfl; exact ⟨patch, by simp, hi⟩
        · rintro ⟨l, h1, h2⟩
          by_contra hne
          have hk' : k < s.patches.length := by
            have := (List.getElem?_eq_some_iff.1 h1).1
            simp at this; omega
          rw [List.getElem?_append_left hk'] at h1
          exact (r3 i hi).1 ((I.seen i).2 ⟨l, List.mem_of_getElem? h1, h2⟩)
      · rw [if_neg hi, I.table i k]
        constructor
        · rintro ⟨l, h1, h2⟩
          have := (List.getElem?_eq_some_iff.1 h1).1
          exact ⟨l, by rw [List.getElem?_append_left this]; exact h1, h2⟩
        · rintro ⟨l, h1, h2⟩
          by_cases hk' : k < s.patches.length
          · rw [List.getElem?_append_left hk'] at h1; exact ⟨l, h1, h2⟩
          · have := (List.getElem?_eq_some_iff.1 h1).1
            have hke : k = s.patches.length := by simp at this; omega
            subst hke
            simp at h1
            subst h1
            exact absurd h2 hi
    · have I6 := I.starts
      unfold StartsOf at I6 ⊢
      exact List.rel_append I6 (.cons ⟨hmem, p, y, hp, hy, hcut⟩ .nil)

theorem discover_spec (N : Net polys smCount numCut T) {pool : List (Nat × Nat)}
    (hpool : ∀ x ∈ pool, smCount ≤ x.1 ∧ ∃ p y, polys[x.1]? = some p ∧ p[x.2]? = some y ∧ y < numCut) :
    ∃ s, discover polys T numCut pool = some s ∧ Sofar polys smCount numCut s ∧ ∀ x ∈ pool, ∃ l ∈ s.patches, x.1 ∈ l := by
  have run : ∀ (l : List (Nat × Nat)) (s : Found), (∀ x ∈ l, x ∈ pool) → Sofar polys smCount numCut s →
      ∃ s', l.foldlM (grow polys T numCut) s = some s' ∧ Sofar polys smCount numCut s' ∧ (∀ x ∈ l, ∃ m ∈ s'.patches, x.1 ∈ m) ∧ s.patches ⊆ s'.patches := by
    intro l
    induction l with
    | nil => intro s _ I; exact ⟨s, rfl, I, by simp, List.Subset.refl _⟩
    | cons x l ih =>
      intro s hl I
      obtain ⟨h1, p, y, h2, h3, h4⟩ := hpool x (hl x List.mem_cons_self)
      obtain ⟨s1, e1, I1, ⟨m, m1, m2⟩, sub1⟩ := grow_spec N I h1 h2 h3 h4
      obtain ⟨s2, e2, I2, c2, sub2⟩ := ih s1 (fun z hz => hl z (List.mem_cons_of_mem _ hz)) I1
      refine ⟨s2, by rw [List.foldlM_cons, e1]; exact e2, I2, ?_, fun z hz => sub2 (sub1 hz)⟩
      intro z hz
      rcases List.mem_cons.1 hz with rfl | hz
      · exact ⟨m, sub2 m1, m2⟩
      · exact c2 z hz
  obtain ⟨s, e, I, hc, -⟩ := run pool.reverse ⟨[], [], [], []⟩ (fun x hx => List.mem_reverse.1 hx)
    ⟨by simp, by simp, by simp, by simp, by intro i k; simp [patchOf], .nil⟩
  exact ⟨s, e, I, fun x hx => hc x (List.mem_reverse.2 hx)⟩

end Mcut.Patches
