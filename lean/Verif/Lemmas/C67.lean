import Verif.Spec.C67
import Mathlib.Data.List.Nodup
import Mathlib.Data.List.Perm.Subperm

/-! Proofs for `Props/C67.lean`. -/
namespace Mcut.CutPaths
open Mcut.Hmesh Mcut.Registry

/-- Edge `e` has an end in `v`. -/
def Inc (ends : Nat → Nat × Nat) (e v : Nat) : Prop := (ends e).1 = v ∨ (ends e).2 = v

instance (ends : Nat → Nat × Nat) (e v : Nat) : Decidable (Inc ends e v) := inferInstanceAs (Decidable (_ ∨ _))

/-- The edges with an end in `v`. -/
def star (ends : Nat → Nat × Nat) (edges : List Nat) (v : Nat) : List Nat := edges.filter (fun e => (ends e).1 == v || (ends e).2 == v)

theorem star_length (ends : Nat → Nat × Nat) (edges : List Nat) (v : Nat) : (star ends edges v).length = degree ends edges v := by
  unfold star degree
  rw [List.countP_eq_length_filter]

theorem mem_star {ends : Nat → Nat × Nat} {edges : List Nat} {e v : Nat} : e ∈ star ends edges v ↔ e ∈ edges ∧ Inc ends e v := by
  simp [star, Inc]

theorem bins_eq_aux (ends : Nat → Nat × Nat) : ∀ (edges : List Nat), (∀ e ∈ edges, (ends e).1 ≠ (ends e).2) → ∀ (M : Nat → List Nat) (v : Nat),
    (edges.foldl (fun M e => push (push M (ends e).1 e) (ends e).2 e) M) v = M v ++ star ends edges v := by
  intro edges
  induction edges with
  | nil => intro _ M v; simp [star]
  | cons e l ih =>
    intro h M v
    have hne := h e (by simp)
    rw [List.foldl_cons, ih (fun x hx => h x (by simp [hx]))]
    unfold star push
    by_cases h1 : (ends e).1 = v
    · subst h1
      simp [hne]
    · by_cases h2 : (ends e).2 = v
      · subst h2
        simp [Ne.symm hne]
      · simp [h1, h2, Ne.symm h1, Ne.symm h2]

theorem bins_eq {ends : Nat → Nat × Nat} {edges : List Nat} (G : Curves ends edges) (v : Nat) : bins ends edges v = star ends edges v := by
  unfold bins
  rw [bins_eq_aux ends edges G.noLoop]
  rfl

theorem mapped_iff {m : List (Nat × Nat)} {k : Nat} : mapped m k = true ↔ k ∈ m.map Prod.fst := by
  simp [mapped]

theorem mapped_false {m : List (Nat × Nat)} {k : Nat} : mapped m k = false ↔ k ∉ m.map Prod.fst := by
  rw [← mapped_iff]; simp

theorem other_spec {ends : Nat → Nat × Nat} {e v : Nat} (h : Inc ends e v) : JoinsV ends e v (other ends e v) := by
  unfold JoinsV other
  split
  · left; rename_i hv; rw [hv]
  · right
    rename_i hv
    rcases h with h | h
    · exact absurd h.symm hv
    · rw [← h]

theorem JoinsV.inc {ends : Nat → Nat × Nat} {e v w : Nat} (h : JoinsV ends e v w) (x : Nat) : Inc ends e x ↔ x = v ∨ x = w := by
  unfold Inc
  rcases h with h | h <;> rw [h] <;> simp [eq_comm, or_comm]

/-- What is known between two sequences: the mapped vertices and edges are those of the sequences built so far. -/
structure Done (ends : Nat → Nat × Nat) (edges : List Nat) (V E : List Nat) : Prop where
  eSub : ∀ e ∈ E, e ∈ edges
  eNd : E.Nodup
  vNd : V.Nodup
  star : ∀ v ∈ V, ∀ e ∈ edges, Inc ends e v → e ∈ E
  back : ∀ v, v ∈ V → ∃ e ∈ E, Inc ends e v
  ends : ∀ e ∈ E, ∀ v, Inc ends e v → v ∈ V

/-- What is known before a round of the inner loop that adds edge `e` at `v`. -/
structure Walk (ends : Nat → Nat × Nat) (edges : List Nat) (V0 E0 : List Nat) (seq V E : List Nat) (v e : Nat) (p : Nat → Nat) : Prop where
  cur : p seq.length = v
  inc : Inc ends e v
  mem : e ∈ edges
  newV : v ∉ V
  newE : e ∉ E
  vs : V.Perm ((List.range seq.length).map p ++ V0)
  es : E.Perm (seq ++ E0)
  sub : ∀ x ∈ seq, x ∈ edges
  joins : ∀ i x, seq[i]? = some x → JoinsV ends x (p i) (p (i + 1))
  inner : ∀ i, 0 < i → i < seq.length → degree ends edges (p i) = 2 ∧ ∀ x ∈ edges, Inc ends x (p i) → x ∈ seq
  last : seq ≠ [] → degree ends edges v = 2 ∧ ∀ x ∈ edges, Inc ends x v → x ∈ seq ∨ x = e

/-- What the inner loop leaves. -/
structure Walked (ends : Nat → Nat × Nat) (edges : List Nat) (V0 E0 : List Nat) (seq V E : List Nat) : Prop where
  vs : ∃ p, V.Perm (p ++ V0) ∧ ∀ v, v ∈ p ↔ ∃ e ∈ seq, Inc ends e v
  es : E.Perm (seq ++ E0)
  sub : ∀ e ∈ seq, e ∈ edges
  shape : IsPath ends edges seq ∨ IsLoop ends edges seq
  whole : ∀ e ∈ seq, ∀ e' ∈ edges, ∀ v, Inc ends e v → Inc ends e' v → e' ∈ seq

theorem nodup_of_perm {ends : Nat → Nat × Nat} {edges V0 E0 seq V E : List Nat} {v e : Nat} {p : Nat → Nat} (W : Walk ends edges V0 E0 seq V E v e p) (hV : V.Nodup) :
    (∀ i j, i < j → j < seq.length → p i ≠ p j) ∧ (∀ i, i < seq.length → p i ∉ V0) ∧ (∀ i, i < seq.length → p i ≠ v) := by
  have h := W.vs.nodup_iff.1 hV
  rw [List.nodup_append] at h
  refine ⟨?_, ?_, ?_⟩
  · intro i j hij hj heq
    have := List.inj_on_of_nodup_map h.1 (List.mem_range.2 (by omega : i < seq.length)) (List.mem_range.2 hj) heq
    omega
  · intro i hi hm
    exact h.2.2 (p i) (List.mem_map.2 ⟨i, List.mem_range.2 hi, rfl⟩) (p i) hm rfl
  · intro i hi heq
    apply W.newV
    rw [← heq]
    exact W.vs.mem_iff.2 (List.mem_append_left _ (List.mem_map.2 ⟨i, List.mem_range.2 hi, rfl⟩))

theorem degree_one {ends : Nat → Nat × Nat} {edges : List Nat} {v e x : Nat} (h : degree ends edges v = 1) (he : e ∈ edges) (hi : Inc ends e v) (hx : x ∈ edges)
    (hxi : Inc ends x v) : x = e := by
  rw [← star_length] at h
  obtain ⟨a, ha⟩ := List.length_eq_one_iff.1 h
  have h1 : e ∈ star ends edges v := mem_star.2 ⟨he, hi⟩
  have h2 : x ∈ star ends edges v := mem_star.2 ⟨hx, hxi⟩
  rw [ha] at h1 h2
  simp at h1 h2
  rw [h1, h2]

theorem degree_two {ends : Nat → Nat × Nat} {edges : List Nat} {v e f x : Nat} (h : degree ends edges v ≤ 2) (hne : e ≠ f) (he : e ∈ edges) (hei : Inc ends e v)
    (hf : f ∈ edges) (hfi : Inc ends f v) (hx : x ∈ edges) (hxi : Inc ends x v) : x = e ∨ x = f := by
  rw [← star_length] at h
  by_contra hc
  rw [not_or] at hc
  have hs : [x, e, f].Subperm (star ends edges v) := by
    apply List.subperm_of_subset
    · simp [hc.1, hc.2, hne]
    · intro y hy
      simp only [List.mem_cons, List.not_mem_nil, or_false] at hy
      rcases hy with rfl | rfl | rfl
      · exact mem_star.2 ⟨hx, hxi⟩
      · exact mem_star.2 ⟨he, hei⟩
      · exact mem_star.2 ⟨hf, hfi⟩
  have := hs.length_le
  simp at this
  omega

theorem degree_two_eq {ends : Nat → Nat × Nat} {edges : List Nat} {v e f : Nat} (h : degree ends edges v ≤ 2) (hne : e ≠ f) (he : e ∈ edges) (hei : Inc ends e v)
    (hf : f ∈ edges) (hfi : Inc ends f v) : degree ends edges v = 2 := by
  rw [← star_length] at h ⊢
  have hs : [e, f].Subperm (star ends edges v) := by
    apply List.subperm_of_subset
    · simp [hne]
    · intro y hy
      simp only [List.mem_cons, List.not_mem_nil, or_false] at hy
      rcases hy with rfl | rfl
      · exact mem_star.2 ⟨he, hei⟩
      · exact mem_star.2 ⟨hf, hfi⟩
  have := hs.length_le
  simp at this
  omega

section
variable {ends : Nat → Nat × Nat} {edges V0 E0 : List Nat} (G : Curves ends edges) (D : Done ends edges V0 E0)
include G D

/-- One round of the inner loop: the sequence ends, as a path or a loop, or goes on. -/
theorem walk_round {seq V E : List Nat} {v e : Nat} {p : Nat → Nat} (W : Walk ends edges V0 E0 seq V E v e p) (hVnd : V.Nodup)
    (hstart : degree ends edges (p 0) = 1 ∨ ∀ x ∉ V0, degree ends edges x ≠ 1) :
    (other ends e v ∈ v :: V → Walked ends edges V0 E0 (seq ++ [e]) (v :: V) (e :: E)) ∧
    (other ends e v ∉ v :: V → degree ends edges (other ends e v) = 1 → Walked ends edges V0 E0 (seq ++ [e]) (other ends e v :: v :: V) (e :: E)) ∧
    (other ends e v ∉ v :: V → ∀ o ∈ edges, Inc ends o (other ends e v) → o ≠ e →
      Walk ends edges V0 E0 (seq ++ [e]) (v :: V) (e :: E) (other ends e v) o (fun i => if i ≤ seq.length then p i else other ends e v)) := by
  obtain ⟨hdist, hp0, hpv⟩ := nodup_of_perm W hVnd
  have hj := other_spec W.inc
  generalize hw : other ends e v = w at *
  have hvw : w ≠ v := by
    have := G.noLoop e W.mem
    rcases hj with h | h <;> rw [h] at this <;> simp at this
    · exact Ne.symm this
    · exact this
  have hincw : Inc ends e w := (hj.inc w).2 (.inr rfl)
  have hsub : ∀ x ∈ seq, x ∈ E := fun x hx => W.es.mem_iff.2 (List.mem_append_left _ hx)
  have heE0 : e ∉ E0 := fun h => W.newE (W.es.mem_iff.2 (List.mem_append_right _ h))
  have hwV0 : w ∉ V0 := fun h => heE0 (D.star w h e W.mem hincw)
  have hvV0 : v ∉ V0 := fun h => W.newV (W.vs.mem_iff.2 (List.mem_append_right _ h))
  have hVmem : ∀ x, x ∈ V ↔ (∃ i < seq.length, p i = x) ∨ x ∈ V0 := by
    intro x; rw [W.vs.mem_iff, List.mem_append]; simp
  -- the points along the longer sequence
  set q : Nat → Nat := fun i => if i ≤ seq.length then p i else w with hq
  have hqlo : ∀ i, i ≤ seq.length → q i = p i := fun i hi => by simp [hq, hi]
  have hqhi : q (seq.length + 1) = w := by simp [hq]
  have hqjoin : ∀ i x, (seq ++ [e])[i]? = some x → JoinsV ends x (q i) (q (i + 1)) := by
    intro i x hx
    by_cases hi : i < seq.length
    · rw [List.getElem?_append_left hi] at hx
      rw [hqlo i (by omega), hqlo (i + 1) (by omega)]
      exact W.joins i x hx
    · rw [List.getElem?_append_right (by omega)] at hx
      have hi' : i = seq.length := by
        by_contra hne
        rw [List.getElem?_eq_none (by simp; omega)] at hx; cases hx
      subst hi'
      simp only [Nat.sub_self, List.getElem?_cons_zero, Option.some.injEq] at hx
      subst hx
      rw [hqlo _ (le_refl _), hqhi, W.cur]
      exact hj
  have hqdist : ∀ i j, i < j → j < (seq ++ [e]).length → q i ≠ q j := by
    intro i j hij hjl
    simp only [List.length_append, List.length_cons, List.length_nil] at hjl
    rw [hqlo i (by omega), hqlo j (by omega)]
    by_cases hjs : j < seq.length
    · exact hdist i j hij hjs
    · obtain rfl : j = seq.length := by omega
      rw [W.cur]
      exact hpv i hij
  have hseqmem : ∀ x ∈ seq ++ [e], x ∈ E ∨ x = e := by
    intro x hx
    rcases List.mem_append.1 hx with hx | hx
    · exact .inl (hsub x hx)
    · exact .inr (by simpa using hx)
  have hseqsub : ∀ x ∈ seq ++ [e], x ∈ edges := by
    intro x hx
    rcases List.mem_append.1 hx with hx | hx
    · exact W.sub x hx
    · rw [List.mem_singleton] at hx; rw [hx]; exact W.mem
  have hpoints : ∀ x, (∃ y ∈ seq ++ [e], Inc ends y x) ↔ ∃ i ≤ seq.length + 1, q i = x := by
    intro x
    constructor
    · rintro ⟨y, hy, hi⟩
      obtain ⟨i, hi'⟩ := List.mem_iff_getElem?.1 hy
      have hl := (List.getElem?_eq_some_iff.1 hi').1
      simp only [List.length_append, List.length_cons, List.length_nil] at hl
      rcases ((hqjoin i y hi').inc x).1 hi with rfl | rfl
      · exact ⟨i, by omega, rfl⟩
      · exact ⟨i + 1, by omega, rfl⟩
    · rintro ⟨i, hi, rfl⟩
      by_cases hil : i < seq.length + 1
      · obtain ⟨y, hy⟩ : ∃ y, (seq ++ [e])[i]? = some y := ⟨_, List.getElem?_eq_getElem (by simp; omega)⟩
        exact ⟨y, List.mem_of_getElem? hy, ((hqjoin i y hy).inc _).2 (.inl rfl)⟩
      · obtain rfl : i = seq.length + 1 := by omega
        obtain ⟨y, hy⟩ : ∃ y, (seq ++ [e])[seq.length]? = some y := ⟨_, List.getElem?_eq_getElem (by simp)⟩
        exact ⟨y, List.mem_of_getElem? hy, ((hqjoin _ y hy).inc _).2 (.inr rfl)⟩
  -- the first edge
  obtain ⟨e0, he0⟩ : ∃ y, (seq ++ [e])[0]? = some y := ⟨_, List.getElem?_eq_getElem (by simp)⟩
  have he0m := List.mem_of_getElem? he0
  have he0i : Inc ends e0 (p 0) := by
    rw [← hqlo 0 (by omega)]
    exact ((hqjoin 0 e0 he0).inc _).2 (.inl rfl)
  have hmid : ∀ i, 0 < i → i ≤ seq.length → degree ends edges (q i) = 2 ∧ ∀ x ∈ edges, Inc ends x (q i) → x ∈ seq ++ [e] := by
    intro i h0 hi
    rw [hqlo i hi]
    by_cases hil : i < seq.length
    · exact ⟨(W.inner i h0 hil).1, fun x hx hxi => List.mem_append_left _ ((W.inner i h0 hil).2 x hx hxi)⟩
    · obtain rfl : i = seq.length := by omega
      have hne : seq ≠ [] := by rintro rfl; simp at h0
      rw [W.cur]
      refine ⟨(W.last hne).1, fun x hx hxi => ?_⟩
      rcases (W.last hne).2 x hx hxi with h | h
      · exact List.mem_append_left _ h
      · rw [h]; simp
  have hperm : (v :: V).Perm ((List.range (seq.length + 1)).map q ++ V0) := by
    have h1 : (List.range (seq.length + 1)).map q = (List.range seq.length).map p ++ [v] := by
      rw [List.range_succ, List.map_append]
      congr 1
      · apply List.map_congr_left
        intro i hi
        rw [List.mem_range] at hi
        exact hqlo i (by omega)
      · simp [hqlo _ (le_refl _), W.cur]
    rw [h1, List.append_assoc, List.singleton_append]
    exact (W.vs.cons v).trans List.perm_middle.symm
  have hperm2 : (e :: E).Perm ((seq ++ [e]) ++ E0) := by
    rw [List.append_assoc, List.singleton_append]
    exact (W.es.cons e).trans List.perm_middle.symm
  have hlen : (seq ++ [e]).length = seq.length + 1 := by simp
  refine ⟨?_, ?_, ?_⟩
  · intro hwm
    have hwV : w ∈ V := by
      rcases List.mem_cons.1 hwm with h | h
      · exact absurd h hvw
      · exact h
    rcases (hVmem w).1 hwV with ⟨i, hi, hpi⟩ | h
    · have hi0 : i = 0 := by
        by_contra h0
        have := (W.inner i (by omega) hi).2 e W.mem (by rw [hpi]; exact hincw)
        exact W.newE (hsub e this)
      subst hi0
      have he0s : e0 ∈ seq := by
        rw [List.getElem?_append_left hi] at he0
        exact List.mem_of_getElem? he0
      have hne : e0 ≠ e := fun h => W.newE (h ▸ hsub e0 he0s)
      have hq0 : q 0 = w := by rw [hqlo 0 (by omega), hpi]
      have hstar : ∀ j ≤ seq.length + 1, ∀ x ∈ edges, Inc ends x (q j) → x ∈ seq ++ [e] := by
        have h0 : ∀ x ∈ edges, Inc ends x w → x ∈ seq ++ [e] := by
          intro x hx hxi
          rcases degree_two (G.degree w) hne (W.sub _ he0s) (by rw [← hpi]; exact he0i) W.mem hincw hx hxi with h | h <;> subst h
          · exact he0m
          · simp
        intro j hj x hx hxi
        by_cases hj0 : j = 0
        · subst hj0; rw [hq0] at hxi; exact h0 x hx hxi
        · by_cases hjl : j ≤ seq.length
          · exact (hmid j (by omega) hjl).2 x hx hxi
          · obtain rfl : j = seq.length + 1 := by omega
            rw [hqhi] at hxi; exact h0 x hx hxi
      refine ⟨⟨_, hperm, ?_⟩, hperm2, hseqsub, .inr ⟨by simp, q, ⟨hqjoin, hqdist⟩, by rw [hlen, hqhi, hq0], ?_⟩, ?_⟩
      · intro x
        rw [hpoints]
        constructor
        · intro hx
          obtain ⟨j, hj, rfl⟩ := List.mem_map.1 hx
          rw [List.mem_range] at hj
          exact ⟨j, by omega, rfl⟩
        · rintro ⟨j, hj, rfl⟩
          by_cases hjl : j ≤ seq.length
          · exact List.mem_map.2 ⟨j, List.mem_range.2 (by omega), rfl⟩
          · obtain rfl : j = seq.length + 1 := by omega
            rw [hqhi, ← hq0]
            exact List.mem_map.2 ⟨0, List.mem_range.2 (by omega), rfl⟩
      · intro j hj
        rw [hlen] at hj
        by_cases hj0 : j = 0
        · subst hj0
          rw [hq0]
          exact degree_two_eq (G.degree w) hne (W.sub _ he0s) (by rw [← hpi]; exact he0i) W.mem hincw
        · exact (hmid j (by omega) (by omega)).1
      · intro y hy x hx u hyu hxu
        obtain ⟨j, hj, rfl⟩ := (hpoints u).1 ⟨y, hy, hyu⟩
        exact hstar j hj x hx hxu
    · exact absurd h hwV0
  · intro hwm hdeg
    have hd0 : degree ends edges (p 0) = 1 := by
      rcases hstart with h | h
      · exact h
      · exact absurd hdeg (h w hwV0)
    have hwV : w ∉ V := fun h => hwm (List.mem_cons_of_mem _ h)
    have hwp : ∀ i, i ≤ seq.length → q i ≠ w := by
      intro i hi heq
      rw [hqlo i hi] at heq
      by_cases hil : i < seq.length
      · exact hwV ((hVmem w).2 (.inl ⟨i, hil, heq⟩))
      · obtain rfl : i = seq.length := by omega
        rw [W.cur] at heq; exact hvw heq.symm
    refine ⟨⟨(List.range (seq.length + 2)).map q, ?_, ?_⟩, hperm2, hseqsub, .inl ⟨_, _, by simp, q, ⟨hqjoin, hqdist⟩, rfl, rfl, ?_, by rw [hqlo 0 (by omega)]; exact hd0,
      by rw [hlen, hqhi]; exact hdeg, ?_⟩, ?_⟩
    · rw [List.range_succ, List.map_append, List.map_cons, List.map_nil, hqhi, List.append_assoc, List.singleton_append]
      exact (hperm.cons w).trans List.perm_middle.symm
    · intro x
      rw [hpoints, List.mem_map]
      constructor
      · rintro ⟨j, hj, rfl⟩
        rw [List.mem_range] at hj
        exact ⟨j, by omega, rfl⟩
      · rintro ⟨j, hj, rfl⟩
        exact ⟨j, List.mem_range.2 (by omega), rfl⟩
    · intro i hi
      rw [hlen] at hi ⊢
      rw [hqhi]
      exact hwp i (by omega)
    · intro i h0 hi
      rw [hlen] at hi
      exact (hmid i h0 (by omega)).1
    · intro y hy x hx u hyu hxu
      obtain ⟨j, hj, rfl⟩ := (hpoints u).1 ⟨y, hy, hyu⟩
      by_cases hj0 : j = 0
      · subst hj0
        rw [hqlo 0 (by omega)] at hxu
        rw [degree_one hd0 (hseqsub _ he0m) he0i hx hxu]
        exact he0m
      · by_cases hjl : j ≤ seq.length
        · exact (hmid j (by omega) hjl).2 x hx hxu
        · obtain rfl : j = seq.length + 1 := by omega
          rw [hqhi] at hxu
          rw [degree_one hdeg W.mem hincw hx hxu]
          simp
  · intro hwm o ho hoi hoe
    have hwV : w ∉ V := fun h => hwm (List.mem_cons_of_mem _ h)
    refine ⟨by rw [hlen]; exact hqhi, hoi, ho, hwm, ?_, by rw [hlen]; exact hperm, hperm2, hseqsub, hqjoin, ?_, ?_⟩
    · intro hm
      rcases List.mem_cons.1 hm with h | h
      · exact hoe h
      · rw [W.es.mem_iff, List.mem_append] at h
        rcases h with h | h
        · obtain ⟨i, hi⟩ := List.mem_iff_getElem?.1 h
          have hl := (List.getElem?_eq_some_iff.1 hi).1
          have : ∀ j, j ≤ seq.length → p j ≠ w := by
            intro j hj heq
            by_cases hjl : j < seq.length
            · exact hwV ((hVmem w).2 (.inl ⟨j, hjl, heq⟩))
            · obtain rfl : j = seq.length := by omega
              rw [W.cur] at heq; exact hvw heq.symm
          rcases ((W.joins i o hi).inc w).1 hoi with h | h
          · exact this i (by omega) h.symm
          · exact this (i + 1) (by omega) h.symm
        · exact hwV0 (D.ends o h w hoi)
    · intro i h0 hi
      rw [hlen] at hi
      exact hmid i h0 (by omega)
    · intro _
      refine ⟨degree_two_eq (G.degree w) (Ne.symm hoe) W.mem hincw ho hoi, fun x hx hxi => ?_⟩
      rcases degree_two (G.degree w) (Ne.symm hoe) W.mem hincw ho hoi hx hxi with h | h
      · left; rw [h]; simp
      · exact .inr h

theorem walk_spec (idx : Nat) : ∀ (n : Nat) (seq : List Nat) (vs es : List (Nat × Nat)) (v e : Nat) (p : Nat → Nat),
    Walk ends edges V0 E0 seq (vs.map Prod.fst) (es.map Prod.fst) v e p → (vs.map Prod.fst).Nodup → (es.map Prod.fst).Nodup → edges.length ≤ n + es.length →
    (degree ends edges (p 0) = 1 ∨ ∀ x ∉ V0, degree ends edges x ≠ 1) →
    ∃ seq' vs' es' l, walk ends (star ends edges) idx n seq vs es v e = some (seq', vs', es') ∧
      Walked ends edges V0 E0 seq' (vs'.map Prod.fst) (es'.map Prod.fst) ∧ (vs'.map Prod.fst).Nodup ∧ (es'.map Prod.fst).Nodup ∧ vs' = l ++ vs ∧ ∀ x ∈ l, x.2 = idx := by
  intro n
  induction n with
  | zero =>
    intro seq vs es v e p W hv he hn hs
    exfalso
    have hsub : (e :: es.map Prod.fst).Subperm edges := by
      apply List.subperm_of_subset (List.nodup_cons.2 ⟨W.newE, he⟩)
      intro x hx
      rcases List.mem_cons.1 hx with rfl | hx
      · exact W.mem
      · rcases List.mem_append.1 (W.es.mem_iff.1 hx) with h | h
        · exact W.sub x h
        · exact D.eSub x h
    have := hsub.length_le
    simp at this
    omega
  | succ n ih =>
    intro seq vs es v e p W hv he hn hs
    obtain ⟨h1, h2, h3⟩ := walk_round G D W hv hs
    have hwinc : Inc ends e (other ends e v) := ((other_spec W.inc).inc _).2 (.inr rfl)
    have hwne : other ends e v ≠ v := by
      have := G.noLoop e W.mem
      have hj := other_spec W.inc
      rcases hj with h | h <;> rw [h] at this <;> simp at this
      · exact Ne.symm this
      · exact this
    unfold walk
    rw [if_neg (by rw [Bool.or_eq_true, mapped_iff, mapped_iff]; rintro (h | h); exacts [W.newV h, W.newE h])]
    by_cases hw : other ends e v ∈ v :: vs.map Prod.fst
    · rw [if_pos (mapped_iff.2 hw)]
      exact ⟨_, _, _, [(v, idx)], rfl, h1 hw, by simp only [List.map_cons, List.nodup_cons]; exact ⟨W.newV, hv⟩,
        by simp only [List.map_cons, List.nodup_cons]; exact ⟨W.newE, he⟩, rfl, by simp⟩
    · rw [if_neg (fun h => hw (mapped_iff.1 h))]
      have hmem : e ∈ star ends edges (other ends e v) := mem_star.2 ⟨W.mem, hwinc⟩
      have hlen := star_length ends edges (other ends e v)
      have hnd : (star ends edges (other ends e v)).Nodup := G.nodup.filter _
      have hd := G.degree (other ends e v)
      have hall : ∀ x ∈ star ends edges (other ends e v), x ∈ edges ∧ Inc ends x (other ends e v) := fun x hx => mem_star.1 hx
      generalize hst : star ends edges (other ends e v) = S at *
      match S, hmem, hlen, hnd, hall with
      | [a], _, hlen, _, _ =>
        refine ⟨_, _, _, [(other ends e v, idx), (v, idx)], rfl, h2 hw hlen.symm, ?_, by simp only [List.map_cons, List.nodup_cons]; exact ⟨W.newE, he⟩, rfl, by simp⟩
        simp only [List.map_cons, List.nodup_cons]
        exact ⟨hw, W.newV, hv⟩
      | [a, b], hmem, hlen, hnd, hall =>
        simp only
        have hab : a ≠ b := by simpa using hnd
        have hne : (if e = a then b else a) ≠ e := by
          split
          · rename_i h; rw [h]; exact Ne.symm hab
          · rename_i h; exact Ne.symm h
        have ho : (if e = a then b else a) ∈ [a, b] := by split <;> simp
        have W' := h3 hw _ (hall _ ho).1 (hall _ ho).2 hne
        have hp0 : (if 0 ≤ seq.length then p 0 else other ends e v) = p 0 := by simp
        rw [if_neg (fun h => W'.newE (mapped_iff.1 h))]
        obtain ⟨seq', vs', es', l, r1, r2, r3, r3', r4, r5⟩ := ih (seq ++ [e]) ((v, idx) :: vs) ((e, idx) :: es) _ _ _ W'
          (by simp only [List.map_cons, List.nodup_cons]; exact ⟨W.newV, hv⟩) (by simp only [List.map_cons, List.nodup_cons]; exact ⟨W.newE, he⟩)
          (by simp; omega) (by rw [hp0]; exact hs)
        refine ⟨seq', vs', es', l ++ [(v, idx)], r1, r2, r3, r3', by rw [r4]; simp, ?_⟩
        intro x hx
        rcases List.mem_append.1 hx with h | h
        · exact r5 x h
        · rw [List.mem_singleton] at h; rw [h]
      | [], hmem, _, _, _ => simp at hmem
      | _ :: _ :: _ :: _, _, hlen, _, _ => simp at hlen; omega

end

/-- What is known between two sequences, with the sequences. -/
structure Inv (ends : Nat → Nat × Nat) (edges : List Nat) (st : St) : Prop where
  done : Done ends edges (st.vs.map Prod.fst) (st.es.map Prod.fst)
  es : (st.es.map Prod.fst).Perm st.seqs.flatten
  shape : ∀ seq ∈ st.seqs, IsPath ends edges seq ∨ IsLoop ends edges seq
  whole : ∀ seq ∈ st.seqs, ∀ e ∈ seq, ∀ e' ∈ edges, ∀ v, Inc ends e v → Inc ends e' v → e' ∈ seq
  index : ∀ v i, (v, i) ∈ st.vs ↔ ∃ seq, st.seqs[i]? = some seq ∧ ∃ e ∈ seq, Inc ends e v

theorem inv_empty (ends : Nat → Nat × Nat) (edges : List Nat) : Inv ends edges ⟨[], [], []⟩ :=
  ⟨⟨by simp, by simp, by simp, by simp, by simp, by simp⟩, by simp, by simp, by simp, by simp⟩

theorem start_spec {ends : Nat → Nat × Nat} {edges order : List Nat} {vs : List (Nat × Nat)} (horder : ∀ v, v ∈ order ↔ star ends edges v ≠ [])
    {u : Nat} (hu : star ends edges u ≠ []) (hun : u ∉ vs.map Prod.fst) :
    ∃ v, start (star ends edges) order vs = some v ∧ star ends edges v ≠ [] ∧ v ∉ vs.map Prod.fst ∧
      (degree ends edges v = 1 ∨ ∀ x ∉ vs.map Prod.fst, degree ends edges x ≠ 1) := by
  unfold start
  cases h1 : order.find? (fun v => !mapped vs v && (star ends edges v).length == 1) with
  | some v =>
    have hm := List.mem_of_find?_eq_some h1
    have hp := List.find?_some h1
    simp only [Bool.and_eq_true, Bool.not_eq_true', beq_iff_eq] at hp
    refine ⟨v, rfl, (horder v).1 hm, mapped_false.1 hp.1, .inl ?_⟩
    rw [← star_length]; exact hp.2
  | none =>
    rw [List.find?_eq_none] at h1
    cases h2 : order.find? (fun v => !mapped vs v) with
    | some v =>
      have hm := List.mem_of_find?_eq_some h2
      have hp := List.find?_some h2
      simp only [Bool.not_eq_true'] at hp
      refine ⟨v, rfl, (horder v).1 hm, mapped_false.1 hp, .inr ?_⟩
      intro x hx hd
      rw [← star_length] at hd
      have hxo : x ∈ order := (horder x).2 (fun h => by rw [h] at hd; simp at hd)
      apply h1 x hxo
      simp only [Bool.and_eq_true, Bool.not_eq_true', beq_iff_eq]
      exact ⟨mapped_false.2 hx, hd⟩
    | none =>
      exfalso
      rw [List.find?_eq_none] at h2
      apply h2 u ((horder u).2 hu)
      simp only [Bool.not_eq_true']
      exact mapped_false.2 hun

theorem build_spec {ends : Nat → Nat × Nat} {edges order : List Nat} (G : Curves ends edges) (hnd : order.Nodup) (horder : ∀ v, v ∈ order ↔ star ends edges v ≠ []) :
    ∀ (n : Nat) (st : St), Inv ends edges st → st.es.length < edges.length → edges.length < n + st.es.length →
      ∃ st', build ends (star ends edges) order edges.length n st = some st' ∧ Inv ends edges st' ∧ st'.es.length = edges.length := by
  intro n
  induction n with
  | zero => intro st _ h1 h2; omega
  | succ n ih =>
    intro st I hlt hn
    -- an edge that is in no sequence
    obtain ⟨x, hx, hxn⟩ : ∃ x ∈ edges, x ∉ st.es.map Prod.fst := by
      by_contra hc
      push Not at hc
      have := (List.subperm_of_subset G.nodup hc).length_le
      simp at this; omega
    have hend : ∀ u, Inc ends x u → u ∉ st.vs.map Prod.fst := fun u hu hm => hxn (I.done.star u hm x hx hu)
    have ha : Inc ends x (ends x).1 := .inl rfl
    have hb : Inc ends x (ends x).2 := .inr rfl
    have hstar : ∀ u, Inc ends x u → star ends edges u ≠ [] := fun u hu h => by
      have := mem_star.2 ⟨hx, hu⟩; rw [h] at this; simp at this
    unfold build
    have hcount : ¬ order.length < st.vs.length + 2 := by
      have hs : ((ends x).1 :: (ends x).2 :: st.vs.map Prod.fst).Subperm order := by
        apply List.subperm_of_subset
        · simp only [List.nodup_cons, List.mem_cons, not_or]
          exact ⟨⟨G.noLoop x hx, hend _ ha⟩, hend _ hb, I.done.vNd⟩
        · intro u hu
          rw [horder]
          rcases List.mem_cons.1 hu with rfl | hu
          · exact hstar _ ha
          · rcases List.mem_cons.1 hu with rfl | hu
            · exact hstar _ hb
            · obtain ⟨e, he, hi⟩ := I.done.back u hu
              intro h
              have := mem_star.2 ⟨I.done.eSub e he, hi⟩; rw [h] at this; simp at this
      have := hs.length_le
      simp at this; omega
    rw [if_neg hcount]
    obtain ⟨v, hv, hvs, hvn, hst⟩ := start_spec (vs := st.vs) horder (hstar _ ha) (hend _ ha)
    rw [hv]
    simp only
    have hfind : ∃ e, (star ends edges v).find? (fun e => !mapped st.es e) = some e := by
      rw [← Option.isSome_iff_exists, List.find?_isSome]
      obtain ⟨y, hy⟩ := List.exists_mem_of_ne_nil _ hvs
      refine ⟨y, hy, ?_⟩
      simp only [Bool.not_eq_true']
      exact mapped_false.2 (fun h => hvn (I.done.ends y h v (mem_star.1 hy).2))
    obtain ⟨e, he⟩ := hfind
    rw [he]
    simp only [Option.bind_some]
    have hem := mem_star.1 (List.mem_of_find?_eq_some he)
    have hen : e ∉ st.es.map Prod.fst := by
      have := List.find?_some he
      simp only [Bool.not_eq_true'] at this
      exact mapped_false.1 this
    have W : Walk ends edges (st.vs.map Prod.fst) (st.es.map Prod.fst) [] (st.vs.map Prod.fst) (st.es.map Prod.fst) v e (fun _ => v) :=
      ⟨rfl, hem.2, hem.1, hvn, hen, by simp, by simp, by simp, by simp, by simp, by simp⟩
    obtain ⟨seq, vs', es', l, r1, r2, r3, r3', r4, r5⟩ := walk_spec G I.done st.seqs.length (edges.length + 1) [] st.vs st.es v e _ W I.done.vNd I.done.eNd (by omega) hst
    rw [r1]
    simp only [Option.bind_some]
    obtain ⟨p, hp1, hp2⟩ := r2.vs
    have hseqne : seq ≠ [] := by
      rcases r2.shape with h | h
      · exact h.choose_spec.choose_spec.1
      · exact h.1
    have hEmem : ∀ y, y ∈ es'.map Prod.fst ↔ y ∈ seq ∨ y ∈ st.es.map Prod.fst := by
      intro y; rw [r2.es.mem_iff, List.mem_append]
    have hVmem : ∀ u, u ∈ vs'.map Prod.fst ↔ (∃ e ∈ seq, Inc ends e u) ∨ u ∈ st.vs.map Prod.fst := by
      intro u; rw [hp1.mem_iff, List.mem_append, hp2]
    have hlmem : ∀ u, u ∈ l.map Prod.fst ↔ ∃ e ∈ seq, Inc ends e u := by
      have hl : (l.map Prod.fst).Perm p := by
        rw [r4, List.map_append] at hp1
        exact (List.perm_append_right_iff _).1 hp1
      intro u; rw [hl.mem_iff, hp2]
    have hnew : Inv ends edges ⟨st.seqs ++ [seq], vs', es'⟩ := by
      refine ⟨⟨?_, r3', r3, ?_, ?_, ?_⟩, ?_, ?_, ?_, ?_⟩
      · intro y hy
        rcases (hEmem y).1 hy with h | h
        · exact r2.sub y h
        · exact I.done.eSub y h
      · intro u hu y hy hi
        rw [hEmem]
        rcases (hVmem u).1 hu with ⟨z, hz, hzi⟩ | h
        · exact .inl (r2.whole z hz y hy u hzi hi)
        · exact .inr (I.done.star u h y hy hi)
      · intro u hu
        rcases (hVmem u).1 hu with ⟨z, hz, hzi⟩ | h
        · exact ⟨z, (hEmem z).2 (.inl hz), hzi⟩
        · obtain ⟨z, hz, hzi⟩ := I.done.back u h
          exact ⟨z, (hEmem z).2 (.inr hz), hzi⟩
      · intro y hy u hu
        rw [hVmem]
        rcases (hEmem y).1 hy with h | h
        · exact .inl ⟨y, h, hu⟩
        · exact .inr (I.done.ends y h u hu)
      · rw [List.flatten_append, List.flatten_singleton]
        exact r2.es.trans ((List.perm_append_comm).trans (I.es.append_right _))
      · intro s hs
        rcases List.mem_append.1 hs with h | h
        · exact I.shape s h
        · rw [List.mem_singleton] at h; rw [h]; exact r2.shape
      · intro s hs
        rcases List.mem_append.1 hs with h | h
        · exact I.whole s h
        · rw [List.mem_singleton] at h; rw [h]; exact r2.whole
      · intro u i
        rw [r4, List.mem_append, I.index]
        constructor
        · rintro (h | ⟨s, hs, h⟩)
          · have := r5 _ h
            simp only at this
            subst this
            refine ⟨seq, by simp, (hlmem u).1 (List.mem_map.2 ⟨_, h, rfl⟩)⟩
          · exact ⟨s, by rw [List.getElem?_append_left (List.getElem?_eq_some_iff.1 hs).1]; exact hs, h⟩
        · rintro ⟨s, hs, h⟩
          by_cases hi : i < st.seqs.length
          · rw [List.getElem?_append_left hi] at hs
            exact .inr ⟨s, hs, h⟩
          · left
            rw [List.getElem?_append_right (by omega)] at hs
            have hi' : i = st.seqs.length := by
              by_contra hne
              rw [List.getElem?_eq_none (by simp; omega)] at hs; cases hs
            subst hi'
            simp only [Nat.sub_self, List.getElem?_cons_zero, Option.some.injEq] at hs
            subst hs
            obtain ⟨⟨u', i'⟩, hx, hxe⟩ := List.mem_map.1 ((hlmem u).2 h)
            have := r5 _ hx
            simp only at this hxe
            subst this; subst hxe
            exact hx
    have hgrow : st.es.length < es'.length := by
      have := r2.es.length_eq
      simp only [List.length_map, List.length_append] at this
      have := List.length_pos_iff.2 hseqne
      omega
    have hle : es'.length ≤ edges.length := by
      have := (List.subperm_of_subset r3' (fun y hy => hnew.done.eSub y hy)).length_le
      simpa using this
    by_cases hall : es'.length ≠ edges.length
    · rw [if_pos hall]
      exact ih _ hnew (by simp only; omega) (by simp only; omega)
    · rw [if_neg hall]
      exact ⟨_, rfl, hnew, by simpa using hall⟩

theorem pick {ends : Nat → Nat × Nat} {t : Nat → Option Nat} {e u u' : Nat} (hj : JoinsV ends e u u') (h1 : (t u).isSome) (h2 : t u' = none) :
    (if (t (ends e).1).isSome then (ends e).1 else (ends e).2) = u := by
  rcases hj with h | h <;> rw [h]
  · simp [h1]
  · simp [h2]

section
variable {P : Type} {ps : Mesh P} {smV smF base : Nat} {reg : List (Nat × Nat)} {ends : Nat → Nat × Nat} {edges : List Nat}

theorem isBorder_iff (ps : Mesh P) (e : Nat) : ps.isBorder e = true ↔ BorderEdge ps e := by
  simp [Mesh.isBorder, BorderEdge, Option.isNone_iff_eq_none]

theorem fromSource_spec {x f : Nat} (S : Sided ps smV smF x f) :
    ∃ b, fromSource ps smF x = some b ∧ (b = true ↔ SourceEdge ps smF x) ∧ (b = false ↔ CutEdge ps smF x) := by
  have ho : opposite (halfedgeOf x 0) = halfedgeOf x 1 := by unfold opposite halfedgeOf; split <;> omega
  obtain ⟨g, hg, he⟩ : ∃ g, OnEdge ps x g ∧ fromSource ps smF x = some (decide (g < smF)) := by
    obtain ⟨g, hg⟩ := S.used
    unfold fromSource
    rw [ho]
    cases h0 : ps.face (halfedgeOf x 0) with
    | some a => exact ⟨a, .inl h0, by simp⟩
    | none =>
      rcases hg with h | h
      · rw [h0] at h; cases h
      · exact ⟨g, .inr h, by rw [h]; simp⟩
  have hone := S.one g hg
  refine ⟨_, he, ?_, ?_⟩
  · rw [decide_eq_true_iff]
    constructor
    · exact fun h => ⟨g, hg, h⟩
    · rintro ⟨g', hg', hl⟩
      have := S.one g' hg'
      by_contra hc
      have h1 := hone.1 (by omega)
      have := this.2 h1; omega
  · rw [decide_eq_false_iff_not]
    exact ⟨fun h => hone.1 (by omega), fun h => by have := hone.2 h; omega⟩

/-- Every end of an edge is a point of the registry, and has a single edge exactly if the edge of its entry is a border edge. -/
def Pointed (ps : Mesh P) (smV smF base : Nat) (reg : List (Nat × Nat)) (ends : Nat → Nat × Nat) (edges : List Nat) : Prop :=
  ∀ e ∈ edges, ∀ v, Inc ends e v → ∃ x f, base ≤ v ∧ reg[v - base]? = some (x, f) ∧ Sided ps smV smF x f ∧ (BorderEdge ps x → degree ends edges v = 1) ∧
    (¬ BorderEdge ps x → degree ends edges v = 2)

theorem terminal_one (hb : Pointed ps smV smF base reg ends edges) {e v : Nat} (he : e ∈ edges) (hi : Inc ends e v) (h : degree ends edges v = 1) :
    ∃ x f, terminal ps reg base v = some x ∧ base ≤ v ∧ reg[v - base]? = some (x, f) ∧ Sided ps smV smF x f ∧ BorderEdge ps x := by
  obtain ⟨x, f, h1, h2, h3, h4, h5⟩ := hb e he v hi
  have hbx : BorderEdge ps x := by
    by_contra hc
    have := h5 hc; omega
  refine ⟨x, f, ?_, h1, h2, h3, hbx⟩
  unfold terminal
  rw [if_neg (by omega), h2, Option.bind_some, if_pos ((isBorder_iff ps x).2 hbx)]

theorem terminal_two (hb : Pointed ps smV smF base reg ends edges) {e v : Nat} (he : e ∈ edges) (hi : Inc ends e v) (h : degree ends edges v = 2) :
    terminal ps reg base v = none ∧ ∀ x, PointOf reg base v x → ¬ BorderEdge ps x := by
  obtain ⟨x, f, h1, h2, h3, h4, h5⟩ := hb e he v hi
  have hbx : ¬ BorderEdge ps x := by
    intro hc
    have := h4 hc; omega
  constructor
  · unfold terminal
    rw [if_neg (by omega), h2, Option.bind_some, if_neg (fun h => hbx ((isBorder_iff ps x).1 h))]
  · rintro x' ⟨f', -, hr⟩
    rw [h2] at hr
    simp only [Option.some.injEq, Prod.mk.injEq] at hr
    rw [← hr.1]; exact hbx

theorem classify_ends (hb : Pointed ps smV smF base reg ends edges) {seq : List Nat} {a b v w e1 e2 : Nat} (ha : seq.head? = some a) (hl : seq.getLast? = some b)
    (hv : (if (terminal ps reg base (ends a).1).isSome then (ends a).1 else (ends a).2) = v)
    (hw : (if b = a then (if v = (ends b).1 then (ends b).2 else (ends b).1) else (if (terminal ps reg base (ends b).1).isSome then (ends b).1 else (ends b).2)) = w)
    (he1 : e1 ∈ edges) (hi1 : Inc ends e1 v) (hd1 : degree ends edges v = 1) (he2 : e2 ∈ edges) (hi2 : Inc ends e2 w) (hd2 : degree ends edges w = 1) :
    ∃ k, classify ps smF base reg ends seq = some k ∧ PathKind ps smF base reg v w k := by
  obtain ⟨x, f, t1, b1, r1, S1, B1⟩ := terminal_one hb he1 hi1 hd1
  obtain ⟨y, g, t2, b2, r2, S2, B2⟩ := terminal_one hb he2 hi2 hd2
  obtain ⟨p, p1, p2, p3⟩ := fromSource_spec S1
  obtain ⟨q, q1, q2, q3⟩ := fromSource_spec S2
  have hsome : ¬ ((terminal ps reg base (ends a).1).isNone && (terminal ps reg base (ends a).2).isNone) = true := by
    intro h
    simp only [Bool.and_eq_true, Option.isNone_iff_eq_none] at h
    have : terminal ps reg base v = none := by
      rw [← hv]
      split
      · exact h.1
      · exact h.2
    rw [t1] at this; cases this
  refine ⟨⟨true, !q && !p, p && q⟩, ?_, x, y, ⟨f, b1, r1⟩, ⟨g, b2, r2⟩, B1, B2, rfl, ?_, ?_⟩
  · unfold classify
    rw [ha, hl]
    simp only [Option.bind_some]
    rw [if_neg hsome, hv, hw, t1, t2]
    simp only [Option.bind_some]
    rw [p1, q1]
    rfl
  · simp only [Bool.and_eq_true, Bool.not_eq_true']
    rw [p3, q3, and_comm]
  · simp only [Bool.and_eq_true]
    rw [p2, q2]

theorem PathKind.symm {v w : Nat} {k : Kind} (h : PathKind ps smF base reg v w k) : PathKind ps smF base reg w v k := by
  obtain ⟨x, y, h1, h2, h3, h4, h5, h6, h7⟩ := h
  exact ⟨y, x, h2, h1, h4, h3, h5, h6.trans and_comm, h7.trans and_comm⟩

theorem classify_path (hb : Pointed ps smV smF base reg ends edges) {seq : List Nat} (hsub : ∀ e ∈ seq, e ∈ edges) (hnd : seq.Nodup) {v w : Nat}
    (hp : PathBetween ends edges seq v w) : ∃ k, classify ps smF base reg ends seq = some k ∧ PathKind ps smF base reg v w k := by
  obtain ⟨hne, p, A, hpv, hpw, hdiff, hdv, hdw, hmid⟩ := hp
  have hlen := List.length_pos_iff.2 hne
  obtain ⟨a, ha⟩ : ∃ a, seq[0]? = some a := ⟨_, List.getElem?_eq_getElem hlen⟩
  obtain ⟨b, hl⟩ : ∃ b, seq[seq.length - 1]? = some b := ⟨_, List.getElem?_eq_getElem (by omega)⟩
  have ja := A.joins 0 a ha
  have jb := A.joins _ b hl
  rw [show seq.length - 1 + 1 = seq.length by omega, hpw] at jb
  rw [hpv] at ja
  have hae := hsub a (List.mem_of_getElem? ha)
  have hbe := hsub b (List.mem_of_getElem? hl)
  have hia : Inc ends a v := (ja.inc v).2 (.inl rfl)
  have hib : Inc ends b w := (jb.inc w).2 (.inr rfl)
  have hh : seq.head? = some a := by rw [List.head?_eq_getElem?, ha]
  have hg : seq.getLast? = some b := by rw [List.getLast?_eq_getElem?, hl]
  obtain ⟨x, -, t1, -⟩ := terminal_one hb hae hia hdv
  obtain ⟨y, -, t2, -⟩ := terminal_one hb hbe hib hdw
  by_cases h1 : seq.length = 1
  · have hab : b = a := by
      rw [h1] at hl
      rw [Nat.sub_self, ha] at hl
      exact (Option.some.inj hl).symm
    subst hab
    rw [show (0 : Nat) + 1 = seq.length by omega, hpw] at ja
    have hvw : v ≠ w := by rw [← hpv]; exact hdiff 0 hlen
    rcases ja with h | h
    · exact classify_ends hb hh hg (v := v) (w := w) (by rw [h]; simp [t1]) (by rw [h]; simp) hae hia hdv hbe hib hdw
    · obtain ⟨k, k1, k2⟩ := classify_ends hb hh hg (v := w) (w := v) (by rw [h]; simp [t2]) (by rw [h]; simp) hbe hib hdw hae hia hdv
      exact ⟨k, k1, k2.symm⟩
  · have hba : b ≠ a := by
      intro h
      rw [h] at hl
      have := (List.getElem?_inj (by omega) hnd).1 (hl.trans ha.symm)
      omega
    have d1 := hmid 1 (by omega) (by omega)
    have d2 := hmid (seq.length - 1) (by omega) (by omega)
    have n1 := (terminal_two hb hae ((ja.inc _).2 (.inr rfl)) d1).1
    have n2 := (terminal_two hb hbe ((jb.inc _).2 (.inl rfl)) d2).1
    have pa : (if (terminal ps reg base (ends a).1).isSome then (ends a).1 else (ends a).2) = v := pick ja (by rw [t1]; rfl) n1
    have pb : (if (terminal ps reg base (ends b).1).isSome then (ends b).1 else (ends b).2) = w := pick jb.symm (by rw [t2]; rfl) n2
    exact classify_ends hb hh hg (v := v) (w := w) pa (by rw [if_neg hba]; exact pb) hae hia hdv hbe hib hdw

theorem classify_loop (hb : Pointed ps smV smF base reg ends edges) {seq : List Nat} (hsub : ∀ e ∈ seq, e ∈ edges) (hp : IsLoop ends edges seq) :
    ∃ k, classify ps smF base reg ends seq = some k ∧ LoopKind ps base reg ends seq k := by
  obtain ⟨hne, p, A, hcl, hdeg⟩ := hp
  have hlen := List.length_pos_iff.2 hne
  have hd : ∀ e ∈ seq, ∀ v, Inc ends e v → degree ends edges v = 2 := by
    intro e he v hi
    obtain ⟨i, hi'⟩ := List.mem_iff_getElem?.1 he
    have hl := (List.getElem?_eq_some_iff.1 hi').1
    rcases ((A.joins i e hi').inc v).1 hi with rfl | rfl
    · exact hdeg i hl
    · by_cases h : i + 1 < seq.length
      · exact hdeg _ h
      · rw [show i + 1 = seq.length by omega, hcl]; exact hdeg 0 hlen
  obtain ⟨a, ha⟩ : ∃ a, seq.head? = some a := by
    cases seq with
    | nil => exact absurd rfl hne
    | cons a l => exact ⟨a, rfl⟩
  obtain ⟨b, hl⟩ : ∃ b, seq.getLast? = some b := ⟨_, List.getLast?_eq_some_getLast hne⟩
  have ham : a ∈ seq := List.mem_of_head? ha
  refine ⟨⟨false, true, true⟩, ?_, rfl, ?_⟩
  · unfold classify
    rw [ha, hl]
    simp only [Option.bind_some]
    rw [if_pos]
    rw [(terminal_two hb (hsub a ham) (.inl rfl) (hd a ham _ (.inl rfl))).1, (terminal_two hb (hsub a ham) (.inr rfl) (hd a ham _ (.inr rfl))).1]
    rfl
  · intro e he v hi
    exact (terminal_two hb (hsub e he) hi (hd e he v hi)).2
end

end Mcut.CutPaths
