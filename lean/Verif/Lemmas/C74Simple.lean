import Verif.Lemmas.C71All
import Verif.Lemmas.C71Outline
import Mathlib.Tactic.ByContra

/-! Lemmas for C74: a polygon does not pass through a vertex twice. -/
namespace Mcut.Trace
open Mcut.Hmesh
variable {P : Type} {m : Mesh P} {E I : List Nat}

theorem cyclic_closed {R : Nat → Nat → Prop} {p : List Nat} (hc : Cyclic R p) {A : Nat → Prop} {x : Nat} (hx : x ∈ p) (hA : A x)
    (hstep : ∀ a b, a ∈ p → b ∈ p → A a → R a b → A b) : ∀ y ∈ p, A y := by
  unfold Cyclic at hc
  rw [List.isChain_iff_getElem] at hc
  obtain ⟨i, hi, rfl⟩ := List.getElem_of_mem hx
  have hlen : (p ++ p.take 1).length = p.length + 1 := by simp; omega
  have hmem : ∀ j (hj : j < (p ++ p.take 1).length), (p ++ p.take 1)[j] ∈ p := by
    intro j hj
    rcases List.mem_append.1 (List.getElem_mem hj) with h | h
    · exact h
    · exact List.mem_of_mem_take h
  have fwd : ∀ k j (hj : j < (p ++ p.take 1).length) (hjk : j + k < (p ++ p.take 1).length), A (p ++ p.take 1)[j] → A (p ++ p.take 1)[j + k] := by
    intro k
    induction k with
    | zero => intro j hj _ h; exact h
    | succ k ih =>
      intro j hj hjk h
      have h1 := ih j hj (by omega) h
      exact hstep _ _ (hmem _ (by omega)) (hmem _ hjk) h1 (hc (j + k) (by omega))
  have e1 : (p ++ p.take 1)[i]'(by omega) = p[i] := List.getElem_append_left hi
  have h0 : A (p[0]'(by omega)) := by
    have := fwd (p.length - i) i (by omega) (by omega) (by rw [e1]; exact hA)
    have e2 : (p ++ p.take 1)[i + (p.length - i)]'(by omega) = p[0]'(by omega) := by
      have : i + (p.length - i) = p.length := by omega
      simp only [this]
      rw [List.getElem_append_right (Nat.le_refl _)]
      simp
    rw [e2] at this
    exact this
  intro y hy
  obtain ⟨j, hj, rfl⟩ := List.getElem_of_mem hy
  have := fwd j 0 (by omega) (by omega) (by rw [List.getElem_append_left (by omega)]; exact h0)
  simp only [Nat.zero_add] at this
  rw [List.getElem_append_left hj] at this
  exact this

theorem cyclic_closed_back {R : Nat → Nat → Prop} {p : List Nat} (hc : Cyclic R p) {A : Nat → Prop} {x : Nat} (hx : x ∈ p) (hA : A x)
    (hstep : ∀ a b, a ∈ p → b ∈ p → A b → R a b → A a) : ∀ y ∈ p, A y := by
  intro y hy
  by_contra hn
  exact cyclic_closed (A := fun z => ¬ A z) hc hy hn (fun a b ha hb na hr hAb => na (hstep a b ha hb hAb hr)) x hx hA

/-- Going on along the cut, without turning back. -/
def Straight (m : Mesh P) (I : List Nat) (g g' : Nat) : Prop := g ∈ I ∧ g' ∈ I ∧ src m g' = m.target g ∧ g' ≠ opposite g

theorem Straight.fun (L : Laid m E I) : Relator.RightUnique (Straight m I) := by
  rintro g a b ⟨hg, ha, sa, na⟩ ⟨-, hb, sb, nb⟩
  rcases L.two a ha b hb (opposite g) (L.pairs g hg) (sa.trans sb.symm) (sb.trans (L.flip g hg).1.symm) with h | h | h
  · exact h
  · exact absurd h nb
  · exact absurd h na

theorem Straight.rev (L : Laid m E I) {g g' : Nat} (h : Straight m I g g') : Straight m I (opposite g') (opposite g) := by
  obtain ⟨hg, hg', s, n⟩ := h
  refine ⟨L.pairs g' hg', L.pairs g hg, ?_, ?_⟩
  · rw [(L.flip g hg).1, (L.flip g' hg').2, s]
  · rw [L.twice g' hg']; exact fun e => n e.symm

/-- `n` steps. -/
def Steps (m : Mesh P) (I : List Nat) : Nat → Nat → Nat → Prop
  | 0, g, g' => g = g'
  | n + 1, g, g' => ∃ a, Straight m I g a ∧ Steps m I n a g'

theorem steps_last : ∀ {n g g' : Nat}, Steps m I (n + 1) g g' → ∃ b, Steps m I n g b ∧ Straight m I b g' := by
  intro n
  induction n with
  | zero => rintro g g' ⟨a, h1, h2⟩; exact ⟨g, rfl, by rw [← show a = g' from h2]; exact h1⟩
  | succ n ih =>
    rintro g g' ⟨a, h1, h2⟩
    obtain ⟨b, h3, h4⟩ := ih h2
    exact ⟨b, ⟨a, h1, h3⟩, h4⟩

theorem steps_of {g g' : Nat} (h : Relation.ReflTransGen (Straight m I) g g') : ∃ n, Steps m I n g g' := by
  induction h using Relation.ReflTransGen.head_induction_on with
  | refl => exact ⟨0, rfl⟩
  | head h1 _ ih => obtain ⟨n, hn⟩ := ih; exact ⟨n + 1, _, h1, hn⟩

/-- The cut does not turn back. -/
theorem no_return (L : Laid m E I) : ∀ (n g : Nat), g ∈ I → ¬ Steps m I n g (opposite g) := by
  intro n
  induction n using Nat.strongRecOn with
  | _ n ih =>
    intro g hg h
    match n, h with
    | 0, h =>
      have h' : g = opposite g := h
      have := L.proper g (.inr hg)
      have e := (L.flip g hg).1
      rw [← h'] at e
      exact this e
    | 1, ⟨a, h1, h2⟩ =>
      have h2' : a = opposite g := h2
      exact h1.2.2.2 h2'
    | n + 2, ⟨a, h1, h2⟩ =>
      obtain ⟨b, h3, h4⟩ := steps_last h2
      have h5 := h4.rev L
      rw [L.twice g hg] at h5
      have hab := Straight.fun L h1 h5
      have hb : b = opposite a := by rw [hab, L.twice b h4.1]
      rw [hb] at h3
      exact ih n (by omega) a h1.2.1 h3

/-- A halfedge and its opposite do not both follow `g`. -/
theorem no_both (L : Laid m E I) {y g : Nat} (hg : g ∈ I) (h1 : Relation.ReflTransGen (Straight m I) y g) (h2 : Relation.ReflTransGen (Straight m I) y (opposite g)) : False := by
  rcases Relation.ReflTransGen.total_of_right_unique (Straight.fun L) h1 h2 with h | h
  · obtain ⟨n, hn⟩ := steps_of h
    exact no_return L n g hg hn
  · obtain ⟨n, hn⟩ := steps_of h
    refine no_return L n (opposite g) (L.pairs g hg) ?_
    rw [L.twice g hg]; exact hn

/-- A vertex on the boundary. -/
def OnE (m : Mesh P) (E : List Nat) (v : Nat) : Prop := ∃ x ∈ E, src m x = v

/-- The cut has no dead ends. -/
def NoDead (m : Mesh P) (E I : List Nat) : Prop := ∀ g ∈ I, OnE m E (m.target g) ∨ ∃ g', Straight m I g g'

/-- One step along the cut, in either direction. -/
def Along (m : Mesh P) (I : List Nat) (v w : Nat) : Prop := ∃ g ∈ I, src m g = v ∧ m.target g = w

/-- No path of the cut crosses another. -/
def NonCrossing (m : Mesh P) (E I : List Nat) : Prop :=
  ∀ x E1 y E2, E ~r (x :: E1) ++ (y :: E2) → Relation.ReflTransGen (Along m I) (src m x) (src m y) →
    ∀ a ∈ E1, ∀ b ∈ E2, ¬ Relation.ReflTransGen (Along m I) (src m a) (src m b)

theorem turn_mem {p : List Nat} (hc : Cyclic (Turn m E I) p) {x : Nat} (hx : x ∈ p) : ∃ y ∈ p, Turn m E I x y := by
  unfold Cyclic at hc
  rw [List.isChain_iff_getElem] at hc
  obtain ⟨i, hi, rfl⟩ := List.getElem_of_mem hx
  have hlen : (p ++ p.take 1).length = p.length + 1 := by simp; omega
  have := hc i (by omega)
  rw [List.getElem_append_left hi] at this
  refine ⟨_, ?_, this⟩
  rcases List.mem_append.1 (List.getElem_mem (l := p ++ p.take 1) (n := i + 1) (by omega)) with h | h
  · exact h
  · exact List.mem_of_mem_take h

theorem turn_pre {p : List Nat} (hc : Cyclic (Turn m E I) p) {x : Nat} (hx : x ∈ p) : ∃ y ∈ p, Turn m E I y x := by
  by_contra hn
  push Not at hn
  obtain ⟨z, hz, hz'⟩ := turn_mem hc hx
  have := cyclic_closed (A := fun a => a ≠ x) hc hz (by rintro rfl; exact hn z hz (by assumption)) (fun a b ha hb _ hr e => hn a ha (e ▸ hr)) x hx
  exact this rfl

theorem cyclic_sub {p : List Nat} (hc : Cyclic (Turn m E I) p) : ∀ x ∈ p, x ∈ E ∨ x ∈ I := by
  intro x hx
  obtain ⟨y, -, h⟩ := turn_pre hc hx
  exact h.mem

/-- Inside the face, a turn leads on along the cut. -/
theorem turn_inner (hd : NoDead m E I) {g g' : Nat} (hg : g ∈ I) (ho : ¬ OnE m E (m.target g)) (h : Turn m E I g g') : Straight m I g g' := by
  rcases hd g hg with h0 | ⟨a, ha⟩
  · exact absurd h0 ho
  · have hI : g' ∈ I := by
      rcases h.mem with h1 | h1
      · exact absurd ⟨g', h1, h.goesOn⟩ ho
      · exact h1
    exact ⟨hg, hI, h.goesOn, h.straight hg ⟨a, ha.2.1, ha.2.2.1, ha.2.2.2⟩⟩

/-- On the boundary, the cut does not go on. -/
theorem straight_inner (L : Laid m E I) {g g' : Nat} (h : Straight m I g g') : ¬ OnE m E (m.target g) := by
  rintro ⟨x, hx, e⟩
  exact h.2.2.2 (L.one x hx g' h.2.1 (opposite g) (L.pairs g h.1) (h.2.2.1.trans e.symm) ((L.flip g h.1).1.trans e.symm))

/-- The path from `y` ends in one point of the boundary. -/
theorem fwd_end (L : Laid m E I) {y a b : Nat} (h1 : Relation.ReflTransGen (Straight m I) y a) (h2 : Relation.ReflTransGen (Straight m I) y b)
    (o1 : OnE m E (m.target a)) (o2 : OnE m E (m.target b)) : a = b := by
  rcases Relation.ReflTransGen.total_of_right_unique (Straight.fun L) h1 h2 with h | h
  · rcases Relation.ReflTransGen.cases_head h with e | ⟨c, h, -⟩
    · exact e
    · exact absurd o1 (straight_inner L h)
  · rcases Relation.ReflTransGen.cases_head h with e | ⟨c, h, -⟩
    · exact e.symm
    · exact absurd o2 (straight_inner L h)

/-- The path from `y` begins in a point of the boundary: it is all that the cut reaches from there. -/
theorem reach_fwd (L : Laid m E I) {y : Nat} (hy : y ∈ I) (o : OnE m E (src m y)) {u : Nat} (h : Relation.ReflTransGen (Along m I) (src m y) u) :
    u = src m y ∨ ∃ g ∈ I, Relation.ReflTransGen (Straight m I) y g ∧ m.target g = u := by
  induction h with
  | refl => exact .inl rfl
  | tail _ h ih =>
    obtain ⟨g', hg', s, t⟩ := h
    obtain ⟨x, hx, ex⟩ := o
    rcases ih with ih | ⟨g, hg, r, ih⟩
    · have : g' = y := L.one x hx g' hg' y hy (s.trans (ih.trans ex.symm)) ex.symm
      subst this
      exact .inr ⟨g', hg', .refl, t⟩
    · by_cases e : g' = opposite g
      · subst e
        rw [(L.flip g hg).2] at t
        rcases Relation.ReflTransGen.cases_tail r with e | ⟨c, rc, h⟩
        · left; rw [← t, e]
        · exact .inr ⟨c, h.1, rc, by rw [← t, h.2.2.1]⟩
      · exact .inr ⟨g', hg', r.tail ⟨hg, hg', by rw [ih, s], e⟩, t⟩

/-- The boundary, begun in one vertex and divided in another. -/
theorem split_at (L : Laid m E I) {x y : Nat} (hx : x ∈ E) (hy : y ∈ E) (hne : x ≠ y) : ∃ E1 E2, E ~r (x :: E1) ++ (y :: E2) := by
  obtain ⟨A, B, rfl⟩ := List.append_of_mem hx
  have hr : A ++ x :: B ~r (x :: B) ++ A := ⟨A.length, by rw [List.rotate_append_length_eq]⟩
  have : y ∈ B ++ A := by
    simp only [List.mem_append, List.mem_cons] at hy ⊢
    rcases hy with h | h | h
    · exact .inr h
    · exact absurd h.symm hne
    · exact .inl h
  obtain ⟨C, D, e⟩ := List.append_of_mem this
  exact ⟨C, D, hr.trans (by rw [List.cons_append, e]; exact List.IsRotated.refl _)⟩

theorem ring_next {e f : Nat} {E1 E2 : List Nat} (R : Ringed m ((e :: E1) ++ (f :: E2))) {g : Nat} (hg : g ∈ f :: E2) : m.target g = src m e ∨ ∃ b ∈ E2, m.target g = src m b := by
  obtain ⟨j, hj⟩ := List.mem_iff_getElem?.1 hg
  have hjl := (List.getElem?_eq_some_iff.1 hj).1
  have hi : ((e :: E1) ++ (f :: E2))[(e :: E1).length + j]? = some g := by
    rw [List.getElem?_append_right (by omega), Nat.add_sub_cancel_left, hj]
  obtain ⟨b, hb, ht⟩ := R.next hi
  by_cases hl : j + 1 = (f :: E2).length
  · left
    have : ((e :: E1).length + j + 1) % ((e :: E1) ++ (f :: E2)).length = 0 := by
      rw [List.length_append, ← hl, Nat.add_assoc, Nat.mod_self]
    rw [this] at hb
    simp only [List.cons_append, List.getElem?_cons_zero, Option.some.injEq] at hb
    rw [ht, hb]
  · right
    have : ((e :: E1).length + j + 1) % ((e :: E1) ++ (f :: E2)).length = (e :: E1).length + (j + 1) := by
      rw [List.length_append, Nat.add_assoc, Nat.mod_eq_of_lt (by omega)]
    rw [this, List.getElem?_append_right (by omega), Nat.add_sub_cancel_left, List.getElem?_cons_succ] at hb
    exact ⟨b, List.mem_of_getElem? hb, ht⟩

theorem ring_rot {E E' : List Nat} (R : Ringed m E) (h : E ~r E') : Ringed m E' := by
  obtain ⟨n, rfl⟩ := h
  exact R.rotate n

/-- A polygon that comes to a point of the boundary along the boundary does not also come to it along the cut. -/
theorem no_repeat_boundary (L : Laid m E I) (R : Ringed m E) (hd : NoDead m E I) (hn : NonCrossing m E I) {p : List Nat} (hc : Cyclic (Turn m E I) p) {x y : Nat}
    (hx : x ∈ p) (hy : y ∈ p) (hxE : x ∈ E) (hyI : y ∈ I) (ht : m.target x = m.target y) : False := by
  have hsub := cyclic_sub hc
  have ho := L.pairs y hyI
  have hos : src m (opposite y) = m.target x := by rw [(L.flip y hyI).1, ht]
  obtain ⟨e0, he0, se0⟩ := L.after hxE
  have hOn : OnE m E (src m (opposite y)) := ⟨e0, he0, by rw [hos, se0]⟩
  -- from x, the polygon goes into the cut
  have hnext : ∀ g, Turn m E I x g → g = opposite y := by
    intro g hg
    have hgI := hg.into hxE ⟨opposite y, ho, hos⟩
    exact L.one e0 he0 g hgI (opposite y) ho (by rw [hg.goesOn, se0]) (by rw [hos, se0])
  obtain ⟨g0, hg0, t0⟩ := turn_mem hc hx
  rw [hnext g0 t0] at hg0
  -- the path comes to the boundary
  have hend : ∃ z ∈ I, Relation.ReflTransGen (Straight m I) (opposite y) z ∧ OnE m E (m.target z) := by
    by_contra hno
    push Not at hno
    have := cyclic_closed (A := fun g => g ∈ I ∧ Relation.ReflTransGen (Straight m I) (opposite y) g) hc hg0 ⟨ho, .refl⟩ (by
      rintro a b - - ⟨ha, ra⟩ hab
      have := turn_inner hd ha (hno a ha ra) hab
      exact ⟨this.2.1, ra.tail this⟩) x hx
    exact L.disjoint hxE this.1
  obtain ⟨z, hz, rz, oz⟩ := hend
  obtain ⟨f0, hf0, sf0⟩ := oz
  have hne : e0 ≠ f0 := by
    rintro rfl
    have : opposite y = opposite z := L.one e0 he0 _ ho _ (L.pairs z hz) (by rw [hos, se0]) (by rw [(L.flip z hz).1, sf0])
    rw [this] at rz
    refine no_both L (L.pairs z hz) (Relation.ReflTransGen.refl) ?_
    rw [L.twice z hz]
    exact rz
  obtain ⟨E1, E2, hrot⟩ := split_at L he0 hf0 hne
  have hmem : ∀ a, a ∈ E ↔ a ∈ (e0 :: E1) ++ (f0 :: E2) := fun a => hrot.perm.mem_iff
  have hR := ring_rot R hrot
  have hchord : ∀ g, Relation.ReflTransGen (Straight m I) (opposite y) g → Relation.ReflTransGen (Along m I) (src m (opposite y)) (m.target g) := by
    intro g hg
    induction hg with
    | refl => exact .single ⟨_, ho, rfl, rfl⟩
    | tail _ h ih => exact ih.tail ⟨_, h.2.1, h.2.2.1, rfl⟩
  have hcz : Relation.ReflTransGen (Along m I) (src m e0) (src m f0) := by
    have := hchord z rz
    rwa [hos, ← se0, ← sf0] at this
  have hnd : ((e0 :: E1) ++ (f0 :: E2)).Nodup := by
    have := L.nd
    rw [List.nodup_append] at this
    exact hrot.nodup_iff.1 this.1
  -- what is connected with a point of E2
  have hside : ∀ a b, a ∈ E → b ∈ E2 → Relation.ReflTransGen (Along m I) (src m a) (src m b) → a ∈ E2 := by
    intro a b ha hb r
    have hbE : b ∈ E := (hmem b).2 (by simp [hb])
    have hbf : b ≠ f0 := by
      rintro rfl
      rw [List.nodup_append] at hnd
      exact (List.nodup_cons.1 hnd.2.1).1 hb
    have hbe : b ≠ e0 := by
      rintro rfl
      rw [List.nodup_append] at hnd
      exact hnd.2.2 b (by simp) b (by simp [hb]) rfl
    rcases List.mem_append.1 ((hmem a).1 ha) with h | h
    · rcases List.mem_cons.1 h with rfl | h
      · exfalso
        rw [show src m a = src m (opposite y) by rw [hos, se0]] at r
        rcases reach_fwd L ho hOn r with h | ⟨g, hg, rg, tg⟩
        · exact hbe (L.sources b hbE a ha (by rw [h, hos, se0]))
        · have := fwd_end L rg rz ⟨b, hbE, tg.symm⟩ ⟨f0, hf0, sf0⟩
          subst this
          exact hbf (L.sources b hbE f0 hf0 (by rw [← tg, sf0]))
      · exact absurd r (hn e0 E1 f0 E2 hrot hcz a h b hb)
    · rcases List.mem_cons.1 h with rfl | h
      · exfalso
        have r' : Relation.ReflTransGen (Along m I) (src m (opposite y)) (src m b) := by
          rw [hos, ← se0]; exact hcz.trans r
        rcases reach_fwd L ho hOn r' with h | ⟨g, hg, rg, tg⟩
        · exact hbe (L.sources b hbE e0 he0 (by rw [h, hos, se0]))
        · have := fwd_end L rg rz ⟨b, hbE, tg.symm⟩ ⟨a, ha, sf0⟩
          subst this
          exact hbf (L.sources b hbE a ha (by rw [← tg, sf0]))
      · exact h
  -- the polygon stays on its side
  have hall := cyclic_closed (A := fun g => (g ∈ I ∧ Relation.ReflTransGen (Straight m I) (opposite y) g) ∨ g ∈ f0 :: E2 ∨
      (g ∈ I ∧ ∃ b ∈ E2, Relation.ReflTransGen (Along m I) (m.target g) (src m b))) hc hg0 (.inl ⟨ho, .refl⟩) (by
    rintro a b - - (⟨ha, ra⟩ | ha | ⟨ha, q, hq, rq⟩) hab
    · by_cases oa : OnE m E (m.target a)
      · have e := fwd_end L ra rz oa ⟨f0, hf0, sf0⟩
        have hbE := hab.outOf ha oa
        have : b = f0 := L.sources b hbE f0 hf0 (by rw [hab.goesOn, e, sf0])
        exact .inr (.inl (by rw [this]; simp))
      · have := turn_inner hd ha oa hab
        exact .inl ⟨this.2.1, ra.tail this⟩
    · have haE : a ∈ E := (hmem a).2 (List.mem_append_right _ ha)
      rcases hab.mem with hbE | hbI
      · rcases ring_next hR ha with h | ⟨q, hq, h⟩
        · have : b ∈ I := hab.into haE ⟨opposite y, ho, by rw [hos, h, se0]⟩
          exact (L.disjoint hbE this).elim
        · have : b = q := L.sources b hbE q ((hmem q).2 (by simp [hq])) (by rw [hab.goesOn, h])
          exact .inr (.inl (by rw [this]; simp [hq]))
      · rcases ring_next hR ha with h | ⟨q, hq, h⟩
        · have : b = opposite y := L.one e0 he0 b hbI (opposite y) ho (by rw [hab.goesOn, h]) (by rw [hos, se0])
          exact .inl (by rw [this]; exact ⟨ho, .refl⟩)
        · exact .inr (.inr ⟨hbI, q, hq, .single ⟨opposite b, L.pairs b hbI, (L.flip b hbI).1, by rw [(L.flip b hbI).2, hab.goesOn, h]⟩⟩)
    · by_cases oa : OnE m E (m.target a)
      · have hbE := hab.outOf ha oa
        exact .inr (.inl (List.mem_cons_of_mem _ (hside b q hbE hq (by rw [hab.goesOn]; exact rq))))
      · have := turn_inner hd ha oa hab
        exact .inr (.inr ⟨this.2.1, q, hq, .head ⟨opposite b, L.pairs b this.2.1, (L.flip b this.2.1).1, by rw [(L.flip b this.2.1).2, hab.goesOn]⟩ rq⟩)) y hy
  rcases hall with ⟨-, h⟩ | h | ⟨-, q, hq, r⟩
  · refine no_both L ho (Relation.ReflTransGen.refl) ?_
    rw [L.twice y hyI]; exact h
  · exact L.disjoint ((hmem y).2 (List.mem_append_right _ h)) hyI
  · have := hside e0 q he0 hq (by rw [se0, ht]; exact r)
    rw [List.nodup_append] at hnd
    exact hnd.2.2 e0 (by simp) e0 (by simp [this]) rfl

/-- A polygon does not pass through a vertex twice. -/
theorem no_repeat (L : Laid m E I) (R : Ringed m E) (hd : NoDead m E I) (hn : NonCrossing m E I) {p : List Nat} (hc : Cyclic (Turn m E I) p) {x y : Nat}
    (hx : x ∈ p) (hy : y ∈ p) (ht : m.target x = m.target y) : x = y := by
  have hsub := cyclic_sub hc
  by_contra hne
  have hb : ∀ a b, a ∈ p → b ∈ p → a ∈ E → m.target a = m.target b → a ≠ b → False := by
    intro a b ha hb haE e ne
    rcases hsub b hb with h | h
    · exact ne (L.targets a haE b h e)
    · exact no_repeat_boundary L R hd hn hc ha hb haE h e
  rcases hsub x hx with hxE | hxI
  · exact hb x y hx hy hxE ht hne
  rcases hsub y hy with hyE | hyI
  · exact hb y x hy hx hyE ht.symm (fun e => hne e.symm)
  -- both along the cut
  by_cases hov : OnE m E (m.target x)
  · obtain ⟨e, he, se⟩ := hov
    have : opposite x = opposite y := L.one e he _ (L.pairs x hxI) _ (L.pairs y hyI) (by rw [(L.flip x hxI).1, se]) (by rw [(L.flip y hyI).1, se, ht])
    exact hne (by rw [← L.twice x hxI, this, L.twice y hyI])
  obtain ⟨g, hg, tg⟩ := turn_mem hc hx
  have sg := turn_inner hd hxI hov tg
  have hgy : g = opposite y := by
    rcases L.two g sg.2.1 (opposite x) (L.pairs x hxI) (opposite y) (L.pairs y hyI) (by rw [tg.goesOn, (L.flip x hxI).1]) (by rw [(L.flip x hxI).1, (L.flip y hyI).1, ht]) with h | h | h
    · exact absurd h sg.2.2.2
    · exact absurd (by rw [← L.twice x hxI, h, L.twice y hyI]) hne
    · exact h
  rw [hgy] at hg
  -- forwards, to the boundary
  have hfw : ∃ z ∈ p, z ∈ I ∧ Relation.ReflTransGen (Straight m I) y z ∧ OnE m E (m.target z) := by
    by_contra hno
    push Not at hno
    have := cyclic_closed (A := fun a => a ∈ I ∧ Relation.ReflTransGen (Straight m I) y a) hc hy ⟨hyI, .refl⟩ (by
      rintro a b hap - ⟨ha, ra⟩ hab
      have := turn_inner hd ha (hno a hap ha ra) hab
      exact ⟨this.2.1, ra.tail this⟩) _ hg
    exact no_both L hyI .refl this.2
  -- backwards, to the boundary
  have hbw : ∃ e ∈ p, e ∈ E ∧ ∃ z ∈ I, Turn m E I e z ∧ Relation.ReflTransGen (Straight m I) z (opposite y) := by
    by_contra hno
    push Not at hno
    have := cyclic_closed_back (A := fun a => a ∈ I ∧ Relation.ReflTransGen (Straight m I) a (opposite y)) hc hg ⟨L.pairs y hyI, .refl⟩ (by
      rintro a b hap - ⟨hbI, rb⟩ hab
      rcases hsub a hap with haE | haI
      · exact absurd rb (hno a hap haE b hbI hab)
      · have oa : ¬ OnE m E (m.target a) := fun oa => L.disjoint (hab.outOf haI oa) hbI
        have := turn_inner hd haI oa hab
        exact ⟨haI, .head this rb⟩) y hy
    obtain ⟨n, hn⟩ := steps_of this.2
    exact no_return L n y hyI hn
  obtain ⟨z, hz, hzI, rz, oz⟩ := hfw
  obtain ⟨e, he, heE, z', hz', te, rz'⟩ := hbw
  -- backwards from opposite y, on the other side of the same path
  have rev : ∀ a b, Relation.ReflTransGen (Straight m I) a b → Relation.ReflTransGen (Straight m I) (opposite b) (opposite a) := by
    intro a b h
    induction h with
    | refl => exact .refl
    | tail _ h ih => exact .head (h.rev L) ih
  have r2 : Relation.ReflTransGen (Straight m I) y (opposite z') := by
    have := rev _ _ rz'
    rwa [L.twice y hyI] at this
  have e1 := fwd_end L rz r2 oz (by
    obtain ⟨q, hq, sq⟩ := L.after heE
    exact ⟨q, hq, by rw [(L.flip z' hz').2, te.goesOn, sq]⟩)
  refine hb e z he hz heE ?_ (by rintro rfl; exact L.disjoint heE hzI)
  rw [e1, (L.flip z' hz').2, te.goesOn]

end Mcut.Trace
