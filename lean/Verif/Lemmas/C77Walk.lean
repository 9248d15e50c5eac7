import Verif.Lemmas.C77Visit

/-! Lemmas for C77: the walks. -/
namespace Mcut.Split
open Mcut.Hmesh Mcut.Extract
open Mcut.Trace (src src_of)
variable {P : Type} {d : P} {E : Env P} {U : Nat → Prop} {m10 : Mesh P} {order : List Nat}

/-- The halfedges that have not been visited. -/
def left (order : List Nat) (flag : Nat → Option Bool) : Nat := order.countP (fun x => decide (flag x = some false))

/-- The flags are kept for the halfedges in `order`. -/
def Dom (order : List Nat) (flag : Nat → Option Bool) : Prop := ∀ x, (∃ b, flag x = some b) ↔ x ∈ order

theorem left_lt {flag : Nat → Option Bool} {h : Nat} (hD : Dom order flag) (hf : flag h = some false) : left order (fun x => if x = h then some true else flag x) < left order flag := by
  have hm := (hD h).1 ⟨_, hf⟩
  clear hD
  unfold left
  induction order with
  | nil => simp at hm
  | cons a l ih =>
    simp only [List.countP_cons]
    by_cases ha : a = h
    · subst ha
      have hle : l.countP (fun x => decide ((if x = a then some true else flag x) = some false)) ≤ l.countP (fun x => decide (flag x = some false)) := by
        apply List.countP_mono_left
        intro x _ hx
        simp only [decide_eq_true_eq] at hx ⊢
        split at hx
        · cases hx
        · exact hx
      rw [if_neg (by simp), if_pos (by simp [hf])]
      omega
    · have := ih (by rcases List.mem_cons.1 hm with h1 | h1; exact absurd h1.symm ha; exact h1)
      dsimp only at this
      simp only [if_neg ha]
      omega

theorem left_pos {flag : Nat → Option Bool} {h : Nat} (hD : Dom order flag) (hf : flag h = some false) : 0 < left order flag := by
  have := left_lt hD hf; omega

theorem left_le (flag : Nat → Option Bool) : left order flag ≤ order.length := List.countP_le_length

theorem Dom.set {flag : Nat → Option Bool} {h : Nat} (hD : Dom order flag) (hf : flag h = some false) : Dom order (fun x => if x = h then some true else flag x) := by
  intro x
  dsimp only
  by_cases hx : x = h
  · rw [if_pos hx, hx]; exact ⟨fun _ => (hD h).1 ⟨_, hf⟩, fun _ => ⟨_, rfl⟩⟩
  · rw [if_neg hx]; exact hD x

/-- A halfedge with which a walk may begin. -/
structure Start (E : Env P) (U : Nat → Prop) (flag : Nat → Option Bool) (h : Nat) : Prop where
  used : U h
  src : src E.m0 h < E.base
  target : E.base ≤ E.m0.target h
  new : flag h = some false

/-- The queue has at most one element, with which a walk may begin. -/
def Queue (E : Env P) (U : Nat → Prop) (s : St P) : Prop := s.queue = [] ∨ ∃ x, s.queue = [x] ∧ Start E U s.flag x

theorem sequence_spec (S : Scene E U) {init : Nat} (hin : src E.m0 init < E.base) : ∀ (f h : Nat) (s : St P) (proj : Nat → Nat) (pend : Option Nat), Inv d E U m10 proj pend s → Dom order s.flag →
    U h → isInter E h → s.flag h = some false → left order s.flag ≤ f → s.queue = [] → (h = init ∨ s.flag init = some true) →
    (E.base ≤ src E.m0 h → ∃ p, pend = some p ∧ E.m0.prev h = some p ∧ s.flag p = some true) → (pend = none ∨ ∃ p, pend = some p ∧ E.m0.next p = some h ∧ U p) →
    ∃ s' proj', sequence E init f h s = some s' ∧ Inv d E U m10 proj' none s' ∧ Dom order s'.flag ∧ left order s'.flag < left order s.flag ∧ Queue E U s' := by
  intro f
  induction f with
  | zero => intro h s proj pend I hD _ _ hf hl; exact absurd (left_pos hD hf) (by omega)
  | succ f ih =>
    intro h s proj pend I hD hU hi hf hl hq hini hx hpend
    obtain ⟨n, n1, n2, n3, n4⟩ := S.next h hU
    obtain ⟨s', proj', v1, V⟩ := visit_spec (init := init) S I hU hi hf n1 (fun hs => ⟨by intro e; rw [e] at hs; omega, hx hs⟩) hpend
    have hD' : Dom order s'.flag := by rw [V.flag]; exact hD.set hf
    have hl' : left order s'.flag < left order s.flag := by rw [V.flag]; exact left_lt hD hf
    have hinit' : s'.flag init = some true := by
      rw [V.flag]
      dsimp only
      rcases hini with h1 | h1
      · rw [if_pos h1.symm]
      · split
        · rfl
        · exact h1
    have hfh : s'.flag h = some true := by rw [V.flag]; dsimp only; rw [if_pos rfl]
    -- what the queue is when the walk comes to an end
    have qu : Queue E U s' := by
      rcases V.queue with h1 | ⟨h1, h2, h3, h4, h5, -⟩
      · left; rw [h1]; exact hq
      · right
        refine ⟨opposite h, by rw [h1, hq], h2, by rw [(S.flip h hU).1]; exact h4, by rw [(S.flip h hU).2]; exact h3, ?_⟩
        rw [V.flag]
        dsimp only
        rw [if_neg (opposite_ne h)]; exact h5
    show ∃ s' proj', (E.m0.next h).bind _ = some s' ∧ _
    rw [n1, Option.bind_some, v1, Option.bind_some]
    by_cases hin' : isInter E n
    · rw [if_pos hin']
      obtain ⟨b, hb⟩ := V.inv.key n n2 hin'
      rw [hb, Option.bind_some]
      cases b with
      | true =>
        rw [if_pos rfl]
        refine ⟨s', proj', rfl, V.inv.settle ?_, hD', hl', qu⟩
        intro n' h1 _
        rw [n1] at h1
        rw [← Option.some.inj h1]; exact hb
      | false =>
        rw [if_neg (by simp)]
        have hq' : s'.queue = [] := by
          rcases V.queue with h1 | ⟨h1, h2, h3, h4, h5, h6⟩
          · rw [h1]; exact hq
          · exfalso
            rcases h6 with h6 | h6
            · rw [h6, hinit'] at hb; cases hb
            · rcases hin' with h7 | h7
              · omega
              · exact h6 h7
        obtain ⟨s2, proj2, r1, r2, r3, r4, r5⟩ := ih n s' proj' (some h) V.inv hD' n2 hin' hb (by omega) hq' (Or.inr hinit') (fun _ => ⟨h, rfl, n4, hfh⟩) (Or.inr ⟨h, rfl, n1, hU⟩)
        exact ⟨s2, proj2, r1, r2, r3, by omega, r5⟩
    · rw [if_neg hin']
      refine ⟨s', proj', rfl, V.inv.settle ?_, hD', hl', qu⟩
      intro n' h1 h2
      rw [n1] at h1
      obtain rfl := Option.some.inj h1
      exact absurd h2 hin'

theorem drain_spec (S : Scene E U) {w : Nat} (hw : order.length ≤ w) : ∀ (f : Nat) (s : St P) (proj : Nat → Nat), Inv d E U m10 proj none s → Dom order s.flag → Queue E U s → left order s.flag < f →
    ∃ s' proj', drain E w f s = some s' ∧ Inv d E U m10 proj' none s' ∧ Dom order s'.flag ∧ s'.queue = [] ∧ left order s'.flag ≤ left order s.flag ∧
      (s.queue ≠ [] → left order s'.flag < left order s.flag) := by
  intro f
  induction f with
  | zero => intro s proj _ _ _ h; omega
  | succ f ih =>
    intro s proj I hD hQ hl
    unfold drain
    rcases hQ with hq | ⟨x, hq, hx⟩
    · rw [hq]
      exact ⟨s, proj, rfl, I, hD, hq, le_refl _, fun h => absurd rfl h⟩
    · rw [hq]
      dsimp only
      obtain ⟨s', proj', r1, r2, r3, r4, r5⟩ := sequence_spec (order := order) S (init := x) hx.src w x { s with queue := [] } proj none (I.queue []) hD hx.used (Or.inr hx.target) hx.new
        (by have := left_le (order := order) s.flag; dsimp only; omega) rfl (Or.inl rfl) (fun h => absurd hx.src (by omega)) (Or.inl rfl)
      rw [r1, Option.bind_some]
      obtain ⟨s2, proj2, q1, q2, q3, q4, q5, -⟩ := ih s' proj' r2 r3 r5 (by dsimp only at r4; omega)
      refine ⟨s2, proj2, q1, q2, q3, q4, by dsimp only at r4; omega, fun _ => by dsimp only at r4; omega⟩

theorem firstThat_spec {p : Nat → Option Bool} : ∀ l : List Nat, (∀ g ∈ l, ∃ b, p g = some b) →
    (firstThat p l = some none ∧ ∀ g ∈ l, p g = some false) ∨ ∃ g ∈ l, p g = some true ∧ firstThat p l = some (some g) := by
  intro l
  induction l with
  | nil => intro _; exact Or.inl ⟨rfl, by simp⟩
  | cons a l ih =>
    intro h
    obtain ⟨b, hb⟩ := h a List.mem_cons_self
    unfold firstThat
    rw [hb, Option.bind_some]
    cases b with
    | true => exact Or.inr ⟨a, List.mem_cons_self, hb, rfl⟩
    | false =>
      rw [if_neg (by simp)]
      rcases ih (fun g hg => h g (List.mem_cons_of_mem _ hg)) with ⟨h1, h2⟩ | ⟨g, h1, h2, h3⟩
      · refine Or.inl ⟨h1, fun g hg => ?_⟩
        rcases List.mem_cons.1 hg with rfl | hg
        · exact hb
        · exact h2 g hg
      · exact Or.inr ⟨g, List.mem_cons_of_mem _ h1, h2, h3⟩

/-- What is known of the keys, and of the polygons. -/
structure Keys (E : Env P) (U : Nat → Prop) (order : List Nat) : Prop where
  all : ∀ h, U h → isInter E h → h ∈ order
  used : ∀ g ∈ order, E.T g ≠ []
  orig : ∀ g ∈ order, src E.m0 g < E.base → E.base ≤ E.m0.target g → U g
  inside : ∀ g ∈ order, ∀ i, (E.T g).head? = some i → i < E.smCount → U g
  poly : ∀ g, U g → ∃ i p, (E.T g).head? = some i ∧ i < E.smCount ∧ E.polygons[i]? = some p ∧ p[(p.idxOf g + p.length - 1) % p.length]? = E.m0.prev g

theorem mayStart_spec (S : Scene E U) (K : Keys E U order) {s : St P} (hD : Dom order s.flag) {g : Nat} (hg : g ∈ order) :
    ∃ b, mayStart E s.flag g = some b ∧ (b = true ↔ Start E U s.flag g ∧ ∃ q, E.m0.prev g = some q ∧
      (src E.m0 q < E.base ∨ ∃ i p, (E.T g).head? = some i ∧ E.polygons[i]? = some p ∧ p.countP (fun x => decide (E.m0.target x < E.base)) = 1)) := by
  unfold mayStart
  by_cases hc : E.base ≤ src E.m0 g ∨ s.flag g = some true ∨ ¬ E.base ≤ E.m0.target g ∨ E.T g = []
  · rw [if_pos hc]
    refine ⟨false, rfl, by simp, ?_⟩
    rintro ⟨h1, -⟩
    have := h1.src
    rcases hc with h2 | h2 | h2 | h2
    · omega
    · rw [h1.new] at h2; cases h2
    · exact absurd h1.target h2
    · exact absurd h2 (K.used g hg)
  · rw [if_neg hc]
    simp only [not_or, not_not] at hc
    obtain ⟨c1, c2, c3, c4⟩ := hc
    have hU := K.orig g hg (by omega) c3
    obtain ⟨i, p, p1, p2, p3, p4⟩ := K.poly g hU
    obtain ⟨q, q1, q2, q3⟩ := S.prev g hU
    obtain ⟨n, n1, -, n3, -⟩ := S.next q q2
    rw [q3] at n1
    obtain rfl := Option.some.inj n1
    rw [p1, Option.bind_some, p3, Option.bind_some, p4, q1, Option.map_some]
    refine ⟨_, rfl, ?_⟩
    have hs : Start E U s.flag g := by
      refine ⟨hU, by omega, c3, ?_⟩
      obtain ⟨b, hb⟩ := (hD g).2 hg
      cases b with
      | true => exact absurd hb c2
      | false => exact hb
    simp only [Bool.and_eq_true, Bool.or_eq_true, decide_eq_true_eq]
    constructor
    · rintro ⟨-, h1⟩
      refine ⟨hs, q, rfl, ?_⟩
      rcases h1 with h1 | h1
      · exact Or.inl h1
      · exact Or.inr ⟨i, p, rfl, p3, h1⟩
    · rintro ⟨-, q', hq', h1⟩
      obtain rfl := Option.some.inj hq'
      refine ⟨by rw [← n3]; omega, ?_⟩
      rcases h1 with h1 | ⟨i', p', h1, h2, h3⟩
      · exact Or.inl h1
      · obtain rfl := Option.some.inj h1
        rw [p3] at h2
        obtain rfl := Option.some.inj h2
        exact Or.inr h3

theorem mayStartInside_spec (S : Scene E U) (K : Keys E U order) {s : St P} {g : Nat} (hg : g ∈ order) : mayStartInside E s.flag g = some false := by
  unfold mayStartInside
  split
  · rfl
  · rename_i hc
    simp only [not_or, not_not] at hc
    obtain ⟨c1, ⟨c2, c3⟩, c4⟩ := hc
    cases hT : (E.T g).head? with
    | none => rw [List.head?_eq_none_iff] at hT; exact absurd hT (K.used g hg)
    | some i =>
      rw [Option.map_some]
      by_cases hi : i < E.smCount
      · have hU := K.inside g hg i hT hi
        rcases S.side g hU (by omega) with h1 | h1 <;> omega
      · rw [decide_eq_false hi]

/-- Nothing is left to begin with. -/
def NoStart (E : Env P) (order : List Nat) (flag : Nat → Option Bool) : Prop := ∀ g ∈ order, mayStart E flag g = some false

theorem findStart_spec (S : Scene E U) (K : Keys E U order) {s : St P} (hD : Dom order s.flag) :
    (findStart E order s.flag = some none ∧ NoStart E order s.flag) ∨ ∃ g, findStart E order s.flag = some (some g) ∧ Start E U s.flag g := by
  unfold findStart
  rcases firstThat_spec (p := mayStart E s.flag) order (fun g hg => by obtain ⟨b, hb, -⟩ := mayStart_spec S K hD hg; exact ⟨b, hb⟩) with ⟨h1, h2⟩ | ⟨g, h1, h2, h3⟩
  · left
    rw [h1, Option.bind_some, if_neg (by simp)]
    refine ⟨?_, h2⟩
    rcases firstThat_spec (p := mayStartInside E s.flag) order (fun g hg => ⟨_, mayStartInside_spec S K hg⟩) with ⟨h3, -⟩ | ⟨g, h3, h4, -⟩
    · exact h3
    · rw [mayStartInside_spec S K h3] at h4; cases h4
  · right
    rw [h3, Option.bind_some, if_pos (by simp)]
    obtain ⟨b, b1, b2⟩ := mayStart_spec S K hD h1
    rw [h2] at b1
    exact ⟨g, rfl, (b2.1 (Option.some.inj b1).symm).1⟩

theorem rounds_spec (S : Scene E U) (K : Keys E U order) : ∀ (f h : Nat) (s : St P) (proj : Nat → Nat), Inv d E U m10 proj none s → Dom order s.flag → s.queue = [] → Start E U s.flag h →
    left order s.flag ≤ f → ∃ s' proj', rounds E order f h s = some s' ∧ Inv d E U m10 proj' none s' ∧ Dom order s'.flag ∧ NoStart E order s'.flag := by
  intro f
  induction f with
  | zero => intro h s proj I hD _ hs hl; exact absurd (left_pos hD hs.new) (by omega)
  | succ f ih =>
    intro h s proj I hD hq hs hl
    unfold rounds
    obtain ⟨s', proj', r1, r2, r3, r4, -, r5⟩ := drain_spec (order := order) S (w := order.length + 1) (by omega) (order.length + 2) { s with queue := h :: s.queue } proj (I.queue _) hD
      (Or.inr ⟨h, by dsimp only; rw [hq], hs⟩) (by have := left_le (order := order) s.flag; dsimp only; omega)
    have r6 := r5 (by simp)
    rw [r1, Option.bind_some]
    rcases findStart_spec S K r3 with ⟨h1, h2⟩ | ⟨g, h1, h2⟩
    · rw [h1, Option.bind_some]
      exact ⟨s', proj', rfl, r2, r3, h2⟩
    · rw [h1, Option.bind_some]
      exact ih g s' proj' r2 r3 r4 h2 (by dsimp only at r6; omega)

theorem walks_spec (S : Scene E U) (K : Keys E U order) {s : St P} {proj : Nat → Nat} (I : Inv d E U m10 proj none s) (hD : Dom order s.flag) (hq : s.queue = []) (h0 : ¬ NoStart E order s.flag) :
    ∃ s' proj', walks E order s = some s' ∧ Inv d E U m10 proj' none s' ∧ Dom order s'.flag ∧ NoStart E order s'.flag := by
  unfold walks
  rcases firstThat_spec (p := mayStart E s.flag) order (fun g hg => by obtain ⟨b, hb, -⟩ := mayStart_spec S K hD hg; exact ⟨b, hb⟩) with ⟨-, h2⟩ | ⟨g, h1, h2, h3⟩
  · exact absurd h2 h0
  · rw [h3, Option.bind_some, Option.bind_some]
    obtain ⟨b, b1, b2⟩ := mayStart_spec S K hD h1
    rw [h2] at b1
    exact rounds_spec S K _ g s proj I hD hq (b2.1 (Option.some.inj b1).symm).1 (by have := left_le (order := order) s.flag; omega)

end Mcut.Split
