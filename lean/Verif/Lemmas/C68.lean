import Verif.Spec.C68
import Verif.Lemmas.C67

/-! Proofs for `Props/C68.lean`. -/
namespace Mcut.Floating
open Mcut.Hmesh Mcut.Registry Mcut.CutPaths

/-- The vertices that the loop looks at. -/
def visit (ends : Nat → Nat × Nat) : List Nat → Option Nat → List Nat
  | [], _ => []
  | e :: l, prev => look ends prev e :: visit ends l (some (look ends prev e))

theorem visit_inc (ends : Nat → Nat × Nat) : ∀ (l : List Nat) (prev : Option Nat), ∀ v ∈ visit ends l prev, ∃ e ∈ l, Inc ends e v := by
  intro l
  induction l with
  | nil => intro prev v hv; simp [visit] at hv
  | cons e l ih =>
    intro prev v hv
    unfold visit at hv
    rcases List.mem_cons.1 hv with h | h
    · refine ⟨e, by simp, ?_⟩
      rw [h]
      unfold look
      split
      · exact .inr rfl
      · exact .inl rfl
    · obtain ⟨x, hx, hi⟩ := ih _ v h
      exact ⟨x, by simp [hx], hi⟩

theorem scan_some (ends : Nat → Nat × Nat) (tested : Nat → Option Nat) : ∀ (l : List Nat) (prev : Option Nat) (g : Nat), (∀ v ∈ visit ends l prev, ∃ f, tested v = some f) →
    ∃ r, scan ends tested l prev (some g) = some r ∧ ∀ f, r = some f ↔ f = g ∧ ∀ v ∈ visit ends l prev, tested v = some g := by
  intro l
  induction l with
  | nil => intro prev g _; exact ⟨some g, rfl, by simp [visit, eq_comm]⟩
  | cons e l ih =>
    intro prev g h
    unfold visit at h
    obtain ⟨f0, hf0⟩ := h _ (List.mem_cons_self)
    unfold scan visit
    rw [hf0, Option.bind_some]
    by_cases hg : g = f0
    · simp only [hg, if_true]
      obtain ⟨r, h1, h2⟩ := ih (some (look ends prev e)) f0 (fun v hv => h v (by simp [hv]))
      refine ⟨r, h1, fun f => ?_⟩
      rw [h2]
      simp [hf0]
    · simp only [hg, if_false]
      refine ⟨none, rfl, fun f => ?_⟩
      simp only [reduceCtorEq, List.mem_cons, forall_eq_or_imp, false_iff, not_and]
      intro _ h1
      rw [hf0] at h1
      exact absurd (Option.some.inj h1).symm hg

theorem scan_all (ends : Nat → Nat × Nat) (tested : Nat → Option Nat) (l : List Nat) (hne : l ≠ []) (h : ∀ v ∈ visit ends l none, ∃ f, tested v = some f) :
    ∃ r, scan ends tested l none none = some r ∧ ∀ f, r = some f ↔ ∀ v ∈ visit ends l none, tested v = some f := by
  cases l with
  | nil => exact absurd rfl hne
  | cons e l =>
    unfold visit at h
    obtain ⟨f0, hf0⟩ := h _ (List.mem_cons_self)
    unfold scan visit
    rw [hf0, Option.bind_some]
    obtain ⟨r, h1, h2⟩ := scan_some ends tested l (some (look ends none e)) f0 (fun v hv => h v (by simp [hv]))
    refine ⟨r, h1, fun f => ?_⟩
    rw [h2]
    constructor
    · rintro ⟨rfl, h⟩ v hv
      rcases List.mem_cons.1 hv with rfl | hv
      · exact hf0
      · exact h v hv
    · intro h
      have : f = f0 := by
        have := h _ (List.mem_cons_self)
        rw [hf0] at this; exact (Option.some.inj this).symm
      subst this
      exact ⟨rfl, fun v hv => h v (List.mem_cons_of_mem _ hv)⟩

theorem look_ahead {ends : Nat → Nat × Nat} {e a b : Nat} (h : JoinsV ends e a b) (hab : a ≠ b) : look ends (some a) e = b := by
  unfold look
  rcases h with h | h <;> rw [h] <;> simp [hab]

theorem look_lag {ends : Nat → Nat × Nat} {e a b : Nat} {prev : Option Nat} (h : JoinsV ends e a b) (h1 : prev ≠ some a) (h2 : prev ≠ some b) :
    look ends prev e = a ∨ look ends prev e = b := by
  unfold look
  rcases h with h | h <;> rw [h] <;> simp [h1, h2]

theorem visit_ahead (ends : Nat → Nat × Nat) (p : Nat → Nat) : ∀ (l : List Nat) (i : Nat), (∀ j e, l[j]? = some e → JoinsV ends e (p (i + j)) (p (i + j + 1))) →
    (∀ j, j < l.length → p (i + j) ≠ p (i + j + 1)) → ∀ j, i < j → j ≤ i + l.length → p j ∈ visit ends l (some (p i)) := by
  intro l
  induction l with
  | nil => intro i _ _ j h1 h2; simp at h2; omega
  | cons e l ih =>
    intro i hj hd j h1 h2
    unfold visit
    have hl : look ends (some (p i)) e = p (i + 1) := look_ahead (by simpa using hj 0 e (by simp)) (by simpa using hd 0 (by simp))
    rw [hl]
    by_cases hji : j = i + 1
    · rw [hji]; simp
    · refine List.mem_cons_of_mem _ (ih (i + 1) ?_ ?_ j (by omega) ?_)
      · intro k x hx
        have := hj (k + 1) x (by simpa using hx)
        rw [show i + 1 + k = i + (k + 1) by omega]; exact this
      · intro k hk
        have := hd (k + 1) (by simp; omega)
        rw [show i + 1 + k = i + (k + 1) by omega]; exact this
      · simp at h2; omega

theorem visit_lag (ends : Nat → Nat × Nat) (p : Nat → Nat) : ∀ (l : List Nat) (i : Nat) (prev : Option Nat),
    (∀ j e, l[j]? = some e → JoinsV ends e (p (i + j)) (p (i + j + 1))) → (∀ j, j < l.length → p (i + j) ≠ p (i + j + 1)) →
    (∀ j, j + 1 < l.length → p (i + j) ≠ p (i + j + 2)) → (prev ≠ some (p i)) → (l ≠ [] → prev ≠ some (p (i + 1))) →
    ∃ s, i ≤ s ∧ s ≤ i + l.length ∧ ∀ j, i ≤ j → j ≤ i + l.length → j ≠ s → p j ∈ visit ends l prev := by
  intro l
  induction l with
  | nil => intro i prev _ _ _ _ _; exact ⟨i, le_refl _, by simp, fun j h1 h2 h3 => by simp at h2; omega⟩
  | cons e l ih =>
    intro i prev hj hd hd2 h1 h2
    have hje : JoinsV ends e (p i) (p (i + 1)) := by simpa using hj 0 e (by simp)
    have hj' : ∀ j x, l[j]? = some x → JoinsV ends x (p (i + 1 + j)) (p (i + 1 + j + 1)) := by
      intro k x hx
      have := hj (k + 1) x (by simpa using hx)
      rw [show i + 1 + k = i + (k + 1) by omega]; exact this
    have hd' : ∀ j, j < l.length → p (i + 1 + j) ≠ p (i + 1 + j + 1) := by
      intro k hk
      have := hd (k + 1) (by simp; omega)
      rw [show i + 1 + k = i + (k + 1) by omega]; exact this
    unfold visit
    rcases look_lag hje h1 (h2 (by simp)) with hl | hl
    · rw [hl]
      obtain ⟨s, s1, s2, s3⟩ := ih (i + 1) (some (p i)) hj' hd' (by
          intro k hk
          have := hd2 (k + 1) (by simp; omega)
          rw [show i + 1 + k = i + (k + 1) by omega]; exact this)
        (by have := hd 0 (by simp); simpa using this)
        (by
          intro hne
          have := hd2 0 (by simp; exact List.length_pos_iff.2 hne)
          simpa using this)
      refine ⟨s, by omega, by simp; omega, fun j a b c => ?_⟩
      by_cases hji : j = i
      · rw [hji]; simp
      · exact List.mem_cons_of_mem _ (s3 j (by omega) (by simp at b; omega) c)
    · rw [hl]
      refine ⟨i, le_refl _, by simp, fun j a b c => ?_⟩
      by_cases hji : j = i + 1
      · rw [hji]; simp
      · exact List.mem_cons_of_mem _ (visit_ahead ends p l (i + 1) hj' hd' j (by omega) (by simp at b; omega))

/-- At most one point of a loop is not looked at, and then both its neighbours are. -/
theorem visit_loop {ends : Nat → Nat × Nat} {seq : List Nat} {p : Nat → Nat} (A : Along ends seq p) (hcl : p seq.length = p 0) (hn : 3 ≤ seq.length) :
    ∀ j, j ≤ seq.length → p j ∈ visit ends seq none ∨ (0 < j ∧ j < seq.length ∧ p (j - 1) ∈ visit ends seq none ∧ p (j + 1) ∈ visit ends seq none) := by
  have hdist : ∀ i j, i < j → j ≤ seq.length → (i, j) ≠ (0, seq.length) → p i ≠ p j := by
    intro i j hij hj hne
    by_cases hjl : j < seq.length
    · exact A.distinct i j hij hjl
    · obtain rfl : j = seq.length := by omega
      rw [hcl]
      have : 0 < i := by
        rcases Nat.eq_zero_or_pos i with rfl | h
        · exact absurd rfl hne
        · exact h
      exact Ne.symm (A.distinct 0 i this hij)
  obtain ⟨s, s1, s2, s3⟩ := visit_lag ends p seq 0 none (by simpa using A.joins)
    (fun j hj => hdist _ _ (by omega) (by omega) (by simp only [ne_eq, Prod.mk.injEq, not_and]; omega))
    (fun j hj => hdist _ _ (by omega) (by omega) (by simp only [ne_eq, Prod.mk.injEq, not_and]; omega)) (by simp) (by simp)
  simp only [Nat.zero_add] at s2 s3
  intro j hj
  by_cases hjs : j = s
  · subst hjs
    rcases Nat.eq_zero_or_pos j with rfl | h0
    · left; rw [← hcl]; exact s3 _ (by omega) (by omega) (by omega)
    · by_cases hjl : j < seq.length
      · exact .inr ⟨h0, hjl, s3 _ (by omega) (by omega) (by omega), s3 _ (by omega) (by omega) (by omega)⟩
      · obtain rfl : j = seq.length := by omega
        left; rw [hcl]; exact s3 _ (by omega) (by omega) (by omega)
  · exact .inl (s3 j (by omega) hj hjs)

theorem inc_along {ends : Nat → Nat × Nat} {seq : List Nat} {p : Nat → Nat} (A : Along ends seq p) {e v : Nat} (he : e ∈ seq) (hi : Inc ends e v) :
    ∃ j ≤ seq.length, p j = v := by
  obtain ⟨i, hi'⟩ := List.mem_iff_getElem?.1 he
  have hl := (List.getElem?_eq_some_iff.1 hi').1
  rcases ((A.joins i e hi').inc v).1 hi with rfl | rfl
  · exact ⟨i, by omega, rfl⟩
  · exact ⟨i + 1, by omega, rfl⟩

/-- A part of a sequence that contains every edge that meets one of its edges is the whole sequence. -/
theorem all_of_closed {ends : Nat → Nat × Nat} {seq S : List Nat} {p : Nat → Nat} (A : Along ends seq p) (hsub : ∀ e ∈ S, e ∈ seq) (hne : S ≠ [])
    (hcl : ∀ e ∈ S, ∀ e' ∈ seq, ∀ v, Inc ends e v → Inc ends e' v → e' ∈ S) : ∀ e ∈ seq, e ∈ S := by
  obtain ⟨e0, h0⟩ := List.exists_mem_of_ne_nil _ hne
  obtain ⟨j, hj⟩ := List.mem_iff_getElem?.1 (hsub e0 h0)
  have hjl := (List.getElem?_eq_some_iff.1 hj).1
  have key : ∀ i x y, seq[i]? = some x → seq[i + 1]? = some y → (x ∈ S ↔ y ∈ S) := by
    intro i x y hx hy
    have h1 : Inc ends x (p (i + 1)) := ((A.joins i x hx).inc _).2 (.inr rfl)
    have h2 : Inc ends y (p (i + 1)) := ((A.joins (i + 1) y hy).inc _).2 (.inl rfl)
    exact ⟨fun h => hcl x h y (List.mem_of_getElem? hy) _ h1 h2, fun h => hcl y h x (List.mem_of_getElem? hx) _ h2 h1⟩
  have zero : ∀ i (h : i < seq.length), (seq[i] ∈ S ↔ seq[0] ∈ S) := by
    intro i
    induction i with
    | zero => intro h; rfl
    | succ i ih =>
      intro h
      rw [← ih (by omega)]
      exact (key i _ _ (List.getElem?_eq_getElem (by omega)) (List.getElem?_eq_getElem h)).symm
  intro e he
  obtain ⟨i, hi⟩ := List.mem_iff_getElem?.1 he
  obtain ⟨hil, hie⟩ := List.getElem?_eq_some_iff.1 hi
  obtain ⟨_, hje⟩ := List.getElem?_eq_some_iff.1 hj
  rw [← hie, zero i hil, ← zero j hjl, hje]
  exact h0

section
variable {ends : Nat → Nat × Nat} {seq : List Nat}

/-- A loop as a graph of its own. -/
structure Ring (ends : Nat → Nat × Nat) (seq : List Nat) : Prop where
  curves : Curves ends seq
  two : ∀ e ∈ seq, ∀ v, Inc ends e v → degree ends seq v = 2
  conn : ∀ S : List Nat, (∀ e ∈ S, e ∈ seq) → S ≠ [] → (∀ e ∈ S, ∀ e' ∈ seq, ∀ v, Inc ends e v → Inc ends e' v → e' ∈ S) → ∀ e ∈ seq, e ∈ S

theorem ring_of {edges : List Nat} (G : Curves ends edges) (hsub : ∀ e ∈ seq, e ∈ edges) (hnd : seq.Nodup)
    (whole : ∀ e ∈ seq, ∀ e' ∈ edges, ∀ v, Inc ends e v → Inc ends e' v → e' ∈ seq) (h : IsLoop ends edges seq) : Ring ends seq := by
  obtain ⟨hne, p, A, hcl, hdeg⟩ := h
  have hlen := List.length_pos_iff.2 hne
  have heq : ∀ e ∈ seq, ∀ v, Inc ends e v → degree ends seq v = degree ends edges v := by
    intro e he v hi
    rw [← star_length, ← star_length]
    apply List.Perm.length_eq
    have n1 : (star ends seq v).Nodup := hnd.filter _
    have n2 : (star ends edges v).Nodup := G.nodup.filter _
    rw [List.perm_ext_iff_of_nodup n1 n2]
    intro x
    show x ∈ star ends seq v ↔ x ∈ star ends edges v
    rw [mem_star, mem_star]
    exact ⟨fun h => ⟨hsub x h.1, h.2⟩, fun h => ⟨whole e he x h.1 v hi h.2, h.2⟩⟩
  have two : ∀ e ∈ seq, ∀ v, Inc ends e v → degree ends seq v = 2 := by
    intro e he v hi
    rw [heq e he v hi]
    obtain ⟨j, hj, rfl⟩ := inc_along A he hi
    by_cases h : j < seq.length
    · exact hdeg j h
    · rw [show j = seq.length by omega, hcl]; exact hdeg 0 hlen
  refine ⟨⟨hnd, fun e he => G.noLoop e (hsub e he), fun v => ?_⟩, two, fun S h1 h2 h3 => all_of_closed A h1 h2 h3⟩
  by_cases hv : ∃ e ∈ seq, Inc ends e v
  · obtain ⟨e, he, hi⟩ := hv
    rw [two e he v hi]
  · have : star ends seq v = [] := by
      rw [List.eq_nil_iff_forall_not_mem]
      intro x hx
      exact hv ⟨x, (mem_star.1 hx).1, (mem_star.1 hx).2⟩
    rw [← star_length, this]; simp

theorem done_nil (ends : Nat → Nat × Nat) (edges : List Nat) : Done ends edges [] [] := ⟨by simp, by simp, by simp, by simp, by simp, by simp⟩

/-- One round of tracing: `o` is the edge along which the current vertex is left. -/
theorem trace_spec (R : Ring ends seq) (hn : 3 ≤ seq.length) : ∀ (k : Nat) (es : List Nat) (cur : Nat) (prev : Option Nat) (p : Nat → Nat), es.length + k = seq.length + 1 → es.length < seq.length →
    (∀ o ∈ seq, Inc ends o cur → some o ≠ prev → Walk ends seq [] [] es ((List.range es.length).map p) es cur o p) → ((List.range es.length).map p).Nodup → es.Nodup →
    (∃ e ∈ seq, Inc ends e cur) → prev = es.getLast? →
    ∃ vs, trace ends (star ends seq) seq.length k ((List.range es.length).map p) cur prev = some vs ∧ Round ends seq vs := by
  intro k
  induction k with
  | zero => intro es cur prev p h1 h2; omega
  | succ k ih =>
    intro es cur prev p hk hlt hW hvnd hend hcur hprev
    -- the edge that is left to take
    obtain ⟨e, he⟩ : ∃ e, (star ends seq cur).find? (fun e => decide (some e ≠ prev)) = some e := by
      rw [← Option.isSome_iff_exists, List.find?_isSome]
      obtain ⟨x, hx, hi⟩ := hcur
      have h2 := R.two x hx cur hi
      rw [← star_length] at h2
      have hnd : (star ends seq cur).Nodup := R.curves.nodup.filter _
      match hs : star ends seq cur, h2, hnd with
      | [a, b], _, hnd =>
        have hab : a ≠ b := by simpa using hnd
        by_cases h : some a = prev
        · exact ⟨b, by simp, by simp; rw [← h]; simp [Ne.symm hab]⟩
        · exact ⟨a, by simp, by simpa using h⟩
    have hem := mem_star.1 (List.mem_of_find?_eq_some he)
    have hep : some e ≠ prev := by simpa using List.find?_some he
    have W := hW e hem.1 hem.2 hep
    have hstart : degree ends seq (p 0) = 1 ∨ ∀ x ∉ ([] : List Nat), degree ends seq x ≠ 1 := by
      right
      intro x _ hd
      have : star ends seq x ≠ [] := fun h => by rw [← star_length, h] at hd; simp at hd
      obtain ⟨y, hy⟩ := List.exists_mem_of_ne_nil _ this
      have := R.two y (mem_star.1 hy).1 x (mem_star.1 hy).2
      omega
    obtain ⟨c1, -, c3⟩ := walk_round R.curves (done_nil ends seq) W hvnd hstart
    have hjoin := other_spec W.inc
    have hincw : Inc ends e (other ends e cur) := (hjoin.inc _).2 (.inr rfl)
    have hacc : (List.range es.length).map p ++ [cur] = (List.range (es.length + 1)).map p := by
      rw [List.range_succ, List.map_append]
      simp [W.cur]
    have hvnd' : ((List.range (es.length + 1)).map p).Nodup := by
      rw [← hacc]
      rw [List.nodup_append]
      refine ⟨hvnd, by simp, fun x hx y hy => ?_⟩
      rw [List.mem_singleton] at hy
      rintro rfl
      rw [hy] at hx; exact W.newV hx
    have hend' : (es ++ [e]).Nodup := by
      rw [List.nodup_append]
      refine ⟨hend, by simp, fun x hx y hy => ?_⟩
      rw [List.mem_singleton] at hy
      rintro rfl
      rw [hy] at hx; exact W.newE hx
    unfold trace
    by_cases hlast : es.length + 1 < seq.length
    · rw [if_pos (by simp [hlast]), he, Option.bind_some]
      have hne : star ends seq (other ends e cur) ≠ [] := fun h => by
        have := mem_star.2 ⟨hem.1, hincw⟩; rw [h] at this; simp at this
      rw [if_neg hne]
      -- the next vertex is new
      have hnew : other ends e cur ∉ cur :: (List.range es.length).map p := by
        intro hm
        have X := c1 hm
        have := R.conn (es ++ [e]) X.sub (by simp) X.whole
        have := (List.subperm_of_subset R.curves.nodup this).length_le
        simp at this; omega
      obtain ⟨vs, v1, v2⟩ := ih (es ++ [e]) (other ends e cur) (some e) (fun i => if i ≤ es.length then p i else other ends e cur) (by simp; omega) (by simp; omega) (by
          intro o ho hoi hoe
          have := c3 hnew o ho hoi (fun h => hoe (by rw [h]))
          refine ⟨this.cur, this.inc, this.mem, ?_, ?_, by simp, by simp, this.sub, this.joins, this.inner, this.last⟩
          · have h := this.newV
            intro hm
            apply h
            have hp := this.vs
            simp only [List.append_nil] at hp
            exact hp.mem_iff.2 hm
          · have h := this.newE
            intro hm
            apply h
            have hp := this.es
            simp only [List.append_nil] at hp
            exact hp.mem_iff.2 hm)
        (by
          rw [List.length_append, List.length_singleton]
          rw [List.map_congr_left (g := p)]
          · exact hvnd'
          · intro i hi
            rw [List.mem_range] at hi
            rw [if_pos (by omega)]) hend' ⟨e, hem.1, hincw⟩ (by simp)
      refine ⟨vs, ?_, v2⟩
      rw [← v1, hacc]
      congr 1
      rw [List.length_append, List.length_singleton]
      apply List.map_congr_left
      intro i hi
      rw [List.mem_range] at hi
      rw [if_pos (by omega)]
    · have hlen : es.length + 1 = seq.length := by omega
      have hes : es ≠ [] := by rintro rfl; simp at hlen; omega
      rw [if_neg]
      · refine ⟨_, rfl, es ++ [e], fun i => if i ≤ es.length then p i else other ends e cur, ?_, ?_, ?_, ?_, ?_⟩
        · have hsub : (es ++ [e]).Subperm seq := by
            apply List.subperm_of_subset hend'
            intro x hx
            rcases List.mem_append.1 hx with h | h
            · exact W.sub x h
            · rw [List.mem_singleton] at h; rw [h]; exact hem.1
          exact hsub.perm_of_length_le (by simp; omega)
        · constructor
          · intro i x hx
            by_cases hi : i < es.length
            · rw [List.getElem?_append_left hi] at hx
              rw [if_pos (by omega), if_pos (by omega)]
              exact W.joins i x hx
            · rw [List.getElem?_append_right (by omega)] at hx
              have hi' : i = es.length := by
                by_contra hne
                rw [List.getElem?_eq_none (by simp; omega)] at hx; cases hx
              subst hi'
              simp only [Nat.sub_self, List.getElem?_cons_zero, Option.some.injEq] at hx
              subst hx
              rw [if_pos (le_refl _), if_neg (by omega), W.cur]
              exact hjoin
          · intro i j hij hj
            rw [List.length_append, List.length_singleton] at hj
            rw [if_pos (by omega), if_pos (by omega)]
            intro heq
            have := List.inj_on_of_nodup_map hvnd' (List.mem_range.2 (by omega : i < es.length + 1)) (List.mem_range.2 hj) heq
            omega
        · simp only [List.length_append, List.length_singleton, Nat.zero_le, if_true]
          rw [if_neg (by omega)]
          -- the last edge leads back to the first vertex
          by_contra hne0
          have hnew : other ends e cur ∉ cur :: (List.range es.length).map p := by
            intro hm
            rcases List.mem_cons.1 hm with h | h
            · have := R.curves.noLoop e hem.1
              rw [h] at hjoin
              rcases hjoin with h | h <;> rw [h] at this <;> simp at this
            · obtain ⟨i, hi, hpi⟩ := List.mem_map.1 h
              rw [List.mem_range] at hi
              have h0 : 0 < i := by
                rcases Nat.eq_zero_or_pos i with rfl | h
                · exact absurd hpi.symm hne0
                · exact h
              exact W.newE ((W.inner i h0 hi).2 e hem.1 (by rw [hpi]; exact hincw))
          -- otherwise there is one more edge
          have h2 := R.two e hem.1 _ hincw
          rw [← star_length] at h2
          have hnd : (star ends seq (other ends e cur)).Nodup := R.curves.nodup.filter _
          obtain ⟨o, ho, hoe⟩ : ∃ o ∈ star ends seq (other ends e cur), o ≠ e := by
            match hs : star ends seq (other ends e cur), h2, hnd with
            | [a, b], _, hnd =>
              have hab : a ≠ b := by simpa using hnd
              by_cases h : a = e
              · exact ⟨b, by simp, fun h' => hab (h.trans h'.symm)⟩
              · exact ⟨a, by simp, h⟩
          have W' := c3 hnew o (mem_star.1 ho).1 (mem_star.1 ho).2 hoe
          have : (o :: e :: es).Subperm seq := by
            apply List.subperm_of_subset
            · refine List.nodup_cons.2 ⟨W'.newE, List.nodup_cons.2 ⟨W.newE, hend⟩⟩
            · intro x hx
              rcases List.mem_cons.1 hx with rfl | hx
              · exact (mem_star.1 ho).1
              · rcases List.mem_cons.1 hx with rfl | hx
                · exact hem.1
                · exact W.sub x hx
          have := this.length_le
          simp at this; omega
        · rw [hacc, ← hlen]
          apply List.map_congr_left
          intro i hi
          rw [List.mem_range] at hi
          rw [if_pos (by omega)]
        · rw [hacc]; exact hvnd'
      · have : prev.isNone = false := by
          rw [hprev, List.getLast?_eq_some_getLast hes]; rfl
        rw [this]
        simp; omega
end

end Mcut.Floating
