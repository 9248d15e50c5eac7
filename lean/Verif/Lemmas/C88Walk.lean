import Verif.Model.CdtWalk
import Verif.Lemmas.C86Grow

/-! # The walk takes each triangle once -/
namespace Mcut.Cdt
open Mcut.Geom

variable {fixed : List (Nat × Nat)} {ts : List Tri}

/-- The triangles form a tree with the given root. -/
structure IsTree (fixed : List (Nat × Nat)) (ts : List Tri) (root : Nat) (p rank : Nat → Nat) : Prop where
  root_lt : root < ts.length
  up : ∀ k < ts.length, k ≠ root → Open fixed ts (p k) k ∧ rank (p k) < rank k
  only : ∀ k k', Open fixed ts k k' → k' < ts.length ∧ ((k' ≠ root ∧ p k' = k) ∨ (k ≠ root ∧ p k = k'))
  single : ∀ (k k' : Nat) (t : Tri) (i j : Fin 3), ts[k]? = some t → t.n i = some k' → t.n j = some k' → i = j

theorem pushes {k : Nat} {t : Tri} (e : ts[k]? = some t) (one : ∀ (k' : Nat) (i j : Fin 3), t.n i = some k' → t.n j = some k' → i = j) (tr st : List Nat) :
    ∃ l : List Nat, pushSide fixed t tr (pushSide fixed t tr (pushSide fixed t tr st 0) 1) 2 = l ++ st ∧ l.Nodup ∧ ∀ x, x ∈ l ↔ Open fixed ts k x ∧ x ∉ tr := by
  obtain ⟨l0, e0, n0, h0⟩ := pushSide_eq (fixed := fixed) t tr st 0
  obtain ⟨l1, e1, n1, h1⟩ := pushSide_eq (fixed := fixed) t tr (l0 ++ st) 1
  obtain ⟨l2, e2, n2, h2⟩ := pushSide_eq (fixed := fixed) t tr (l1 ++ (l0 ++ st)) 2
  obtain ⟨l, el, -, hl⟩ := push_eq (fixed := fixed) e tr st
  refine ⟨l, el, ?_, hl⟩
  have e3 : l = l2 ++ (l1 ++ l0) := by
    rw [e0, e1, e2] at el
    apply List.append_cancel_right (bs := st)
    rw [← el]; simp
  have sub : ∀ l : List Nat, l.length ≤ 1 → l.Nodup := by
    intro l hl
    match l, hl with
    | [], _ => exact List.nodup_nil
    | [a], _ => exact List.nodup_singleton a
  rw [e3, List.nodup_append, List.nodup_append]
  refine ⟨sub _ n2, ⟨sub _ n1, sub _ n0, ?_⟩, ?_⟩
  · intro a ha b hb hab
    subst hab
    exact absurd (one a _ _ ((h1 a).1 ha).1 ((h0 a).1 hb).1) (by decide)
  · intro a ha b hb hab
    subst hab
    rcases List.mem_append.1 hb with hb | hb
    · exact absurd (one a _ _ ((h2 a).1 ha).1 ((h1 a).1 hb).1) (by decide)
    · exact absurd (one a _ _ ((h2 a).1 ha).1 ((h0 a).1 hb).1) (by decide)

theorem walk_spec {root : Nat} {p rank : Nat → Nat} (H : IsTree fixed ts root p rank) (fuel : Nat) : ∀ (st done : List Nat),
    ts.length ≤ fuel + done.length → (st ++ done).Nodup → (∀ k ∈ st ++ done, k < ts.length) → root ∈ st ++ done →
    (∀ k ∈ st, k ≠ root → p k ∈ done) → (∀ k < ts.length, k ≠ root → p k ∈ done → k ∈ st ++ done) →
    (∀ l1 k l2, done = l1 ++ k :: l2 → k ≠ root → p k ∈ l1) →
    ∃ order, walk fixed ts fuel st done = some order ∧ order.Perm (List.range ts.length) ∧ ∀ l1 k l2, order = l1 ++ k :: l2 → k ≠ root → p k ∈ l1 := by
  have stop : ∀ (fuel : Nat) (done : List Nat), ([] ++ done).Nodup → (∀ k ∈ [] ++ done, k < ts.length) → root ∈ [] ++ done → (∀ k < ts.length, k ≠ root → p k ∈ done → k ∈ [] ++ done) →
      (∀ l1 k l2, done = l1 ++ k :: l2 → k ≠ root → p k ∈ l1) →
      ∃ order, walk fixed ts fuel [] done = some order ∧ order.Perm (List.range ts.length) ∧ ∀ l1 k l2, order = l1 ++ k :: l2 → k ≠ root → p k ∈ l1 := by
    intro fuel done nd lt hr closed ord
    rw [List.nil_append] at nd lt hr
    refine ⟨done, by cases fuel <;> rfl, ?_, ord⟩
    refine (List.perm_ext_iff_of_nodup nd List.nodup_range).2 fun k => ?_
    rw [List.mem_range]
    refine ⟨lt k, ?_⟩
    have all : ∀ r k, rank k < r → k < ts.length → k ∈ done := by
      intro r
      induction r with
      | zero => intro k h; omega
      | succ r ih =>
        intro k hk hl
        by_cases hroot : k = root
        · subst hroot; exact hr
        · obtain ⟨⟨t, i, et, -⟩, h2⟩ := H.up k hl hroot
          have := closed k hl hroot (ih _ (by omega) (List.getElem?_eq_some_iff.1 et).1)
          simpa using this
    exact all _ k (Nat.lt_succ_self _)
  induction fuel with
  | zero =>
    intro st done hf nd lt hr par closed ord
    have : st = [] := by
      have sp : (st ++ done).length ≤ (List.range ts.length).length := (List.subperm_of_subset nd (fun k hk => List.mem_range.2 (lt k hk))).length_le
      rw [List.length_append, List.length_range] at sp
      exact List.length_eq_zero_iff.1 (by omega)
    subst this
    exact stop 0 done nd lt hr closed ord
  | succ fuel ih =>
    intro st done hf nd lt hr par closed ord
    match st with
    | [] => exact stop _ done nd lt hr closed ord
    | k :: rest =>
      have hk := lt k (by simp)
      have et := List.getElem?_eq_getElem hk
      obtain ⟨l, el, ln, hl⟩ := pushes (fixed := fixed) et (fun k' i j hi hj => H.single k k' _ i j et hi hj) (done ++ [k]) rest
      rw [List.cons_append, List.nodup_cons] at nd
      obtain ⟨nk, nd⟩ := nd
      rw [List.mem_append, not_or] at nk
      have child : ∀ x ∈ l, x < ts.length ∧ x ≠ root ∧ p x = k ∧ x ∉ done ∧ x ≠ k := by
        intro x hx
        obtain ⟨ho, hn⟩ := (hl x).1 hx
        rw [List.mem_append, List.mem_singleton, not_or] at hn
        obtain ⟨h1, ⟨h2, h3⟩ | ⟨h2, h3⟩⟩ := H.only k x ho
        · exact ⟨h1, h2, h3, hn⟩
        · exact absurd (by rw [← h3]; exact par k (by simp) h2) hn.1
      have key := ih (l ++ rest) (done ++ [k]) (by rw [List.length_append, List.length_singleton]; omega) ?_ ?_ ?_ ?_ ?_ ?_
      · obtain ⟨order, h1, h2⟩ := key
        refine ⟨order, ?_, h2⟩
        rw [walk, et, Option.bind_some, el]
        exact h1
      · -- nodup
        have nd1 := List.nodup_append.1 nd
        rw [List.nodup_append, List.nodup_append, List.nodup_append]
        refine ⟨⟨ln, nd1.1, ?_⟩, ⟨nd1.2.1, List.nodup_singleton k, ?_⟩, ?_⟩
        · intro a ha b hb hab
          subst hab
          obtain ⟨-, c2, c3, -⟩ := child a ha
          have := par a (by simp [hb]) c2
          rw [c3] at this
          exact nk.2 this
        · intro a ha b hb hab
          rw [List.mem_singleton] at hb
          subst hab; subst hb
          exact nk.2 ha
        · intro a ha b hb hab
          subst hab
          rcases List.mem_append.1 ha with ha | ha <;> rcases List.mem_append.1 hb with hb | hb
          · exact (child a ha).2.2.2.1 hb
          · exact (child a ha).2.2.2.2 (List.mem_singleton.1 hb)
          · exact nd1.2.2 a ha a hb rfl
          · rw [List.mem_singleton] at hb; subst hb; exact nk.1 ha
      · intro x hx
        simp only [List.mem_append, List.mem_singleton] at hx
        rcases hx with (hx | hx) | hx | hx
        · exact (child x hx).1
        · exact lt x (by simp [hx])
        · exact lt x (by simp [hx])
        · subst hx; exact hk
      · simp only [List.mem_append, List.mem_cons, List.not_mem_nil, or_false] at hr ⊢
        tauto
      · intro x hx hr
        rcases List.mem_append.1 hx with hx | hx
        · rw [(child x hx).2.2.1]; simp
        · have := par x (by simp [hx]) hr
          simp [this]
      · intro x hx hr hp
        rw [List.mem_append, List.mem_singleton] at hp
        rcases hp with hp | hp
        · have := closed x hx hr hp
          simp only [List.mem_append, List.mem_cons, List.not_mem_nil, or_false] at this ⊢
          tauto
        · by_cases hxd : x ∈ done ++ [k]
          · rw [List.mem_append]; exact .inr hxd
          · have := (hl x).2 ⟨by rw [← hp]; exact (H.up x hx hr).1, hxd⟩
            simp [this]
      · intro l1 x l2 h hx
        rcases List.append_eq_append_iff.1 h with ⟨a, h1, h2⟩ | ⟨a, h1, h2⟩
        · cases a with
          | nil =>
            rw [List.nil_append, List.singleton_append.symm] at h2
            rw [List.append_nil] at h1
            have : k = x := by simpa using (List.cons.inj h2).1
            subst this; subst h1
            exact par k (by simp) hx
          | cons b a => simp at h2
        · cases a with
          | nil =>
            rw [List.nil_append] at h2
            rw [List.append_nil] at h1
            have : x = k := by simpa using (List.cons.inj h2).1
            subst this; subst h1
            exact par x (by simp) hx
          | cons b a =>
            rw [List.cons_append] at h2
            obtain ⟨rfl, -⟩ := List.cons.inj h2
            exact ord l1 x a h1 hx

/-- The walk from the root: each triangle once, and each after its parent. -/
theorem walk_tree {root : Nat} {p rank : Nat → Nat} (H : IsTree fixed ts root p rank) :
    ∃ order, walk fixed ts ts.length [root] [] = some order ∧ order.Perm (List.range ts.length) ∧ ∀ l1 k l2, order = l1 ++ k :: l2 → k ≠ root → p k ∈ l1 := by
  refine walk_spec H ts.length [root] [] (by omega) (by simp) ?_ (by simp) ?_ (by simp) (by simp)
  · intro k hk
    simp at hk; subst hk; exact H.root_lt
  · intro k hk hr
    simp at hk; exact absurd hk hr

end Mcut.Cdt
