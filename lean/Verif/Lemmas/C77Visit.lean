import Verif.Lemmas.C77Grow

/-! Lemmas for C77: one halfedge of a walk. -/
namespace Mcut.Split
open Mcut.Hmesh Mcut.Extract
open Mcut.Trace (src src_of)
variable {P : Type} {d : P} {E : Env P} {U : Nat → Prop} {m10 : Mesh P} {proj : Nat → Nat} {pend : Option Nat} {s : St P}

theorem at_congr {m : Mesh P} (hm : ∀ k, m.target k = s.m1.target k ∧ src m k = src s.m1 k) (h w : Nat) : At E { s with m1 := m } h w ↔ At E s h w := by
  unfold At
  constructor
  · rintro (⟨k, h1, h2⟩ | ⟨n, k, h1, h2, h3⟩)
    · exact Or.inl ⟨k, h1, by rw [← (hm k).1]; exact h2⟩
    · exact Or.inr ⟨n, k, h1, h2, by rw [← (hm k).2]; exact h3⟩
  · rintro (⟨k, h1, h2⟩ | ⟨n, k, h1, h2, h3⟩)
    · exact Or.inl ⟨k, h1, by rw [(hm k).1]; exact h2⟩
    · exact Or.inr ⟨n, k, h1, h2, by rw [(hm k).2]; exact h3⟩

/-- The end of `h` is settled, and nothing else has happened. -/
structure Ended (d : P) (E : Env P) (U : Nat → Prop) (m10 : Mesh P) (pend : Option Nat) (s : St P) (h : Nat) (m : Mesh P) (b : Nat) (proj : Nat → Nat) : Prop where
  inv : Inv d E U m10 proj pend { s with m1 := m }
  lt : b < m.nV
  pb : proj b = E.m0.target h
  grow : s.ihe h = none →
    (E.base ≤ E.m0.target h → (∃ n k, E.m0.next h = some n ∧ s.ihe n = some k ∧ src m k = b) ∨
      ((∀ n, E.m0.next h = some n → s.ihe n = none) ∧ ∀ g, U g → E.base ≤ E.m0.target g → ¬ At E { s with m1 := m } g b)) ∧
    (E.numCut ≤ h → E.base ≤ E.m0.target h → ∀ g, U g → E.base ≤ E.m0.target g → ¬ At E { s with m1 := m } g b) ∧
    (E.numCut ≤ h → U (opposite h) → E.base ≤ E.m0.target h → ∀ q, E.m0.prev (opposite h) = some q → s.ihe q = none)

theorem ended_duplicate (S : Scene E U) (I : Inv d E U m10 proj pend s) {h n g : Nat} (hU : U h) (hb : E.base ≤ E.m0.target h) (hn : E.m0.next h = some n) (hin : s.ihe n = none)
    (hg : U g) (hgt : E.m0.target g = E.m0.target h) (hgf : s.flag g = some true)
    (hq : s.ihe h = none → E.numCut ≤ h → U (opposite h) → E.base ≤ E.m0.target h → ∀ q, E.m0.prev (opposite h) = some q → s.ihe q = none) :
    ∃ m b proj', duplicate s g = some (m, b) ∧ Ended d E U m10 pend s h m b proj' := by
  obtain ⟨k, hk⟩ := (I.dom g).2 (Or.inl hgf)
  obtain ⟨e1, e2, e3, e4⟩ := I.ends g k hk
  have ht := (I.plain.ends e2).2.2.2.1
  have hp : s.m1.pos (s.m1.target k) = E.m0.pos (E.m0.target h) := by rw [I.pos _ ht, e4, hgt]
  obtain ⟨I', b1, b2, b3⟩ := I.addVertex S hb (S.bound h hU).2
  refine ⟨_, s.m1.nV, _, ?_, I', ?_, ?_, ?_⟩
  · unfold duplicate
    rw [hk, Option.map_some, hp, ← b1]
  · rw [b2]; omega
  · rw [if_pos rfl]
  · intro h0
    have na : ∀ x, U x → E.base ≤ E.m0.target x → ¬ At E { s with m1 := (s.m1.addVertex (E.m0.pos (E.m0.target h))).1 } x s.m1.nV := by
      intro x hx _ hA
      rw [at_congr b3] at hA
      have := (I.at_proj S hx hA).2
      omega
    exact ⟨fun _ => Or.inr ⟨fun n' hn' => by rw [hn] at hn'; rw [← Option.some.inj hn']; exact hin, na⟩, fun _ _ => na, hq h0⟩

theorem endOf_spec (S : Scene E U) (I : Inv d E U m10 proj pend s) {h n : Nat} (hU : U h) (hf : s.flag h = some false) (hn : E.m0.next h = some n)
    (hpend : src E.m0 h < E.base → ∀ p, pend = some p → E.m0.target p < E.base) : ∃ m b proj', endOf E s h n = some (m, b) ∧ Ended d E U m10 pend s h m b proj' := by
  obtain ⟨n', n1, n2, n3, n4⟩ := S.next h hU
  rw [hn] at n1
  obtain rfl := Option.some.inj n1
  unfold endOf
  by_cases hb : E.base ≤ E.m0.target h
  · rw [if_pos hb]
    -- on the boundary: what is known of the opposite halfedge
    have opp_dom : ∀ k, s.ihe h = some k → U (opposite h) ∧ s.flag (opposite h) = some true ∧ E.numCut ≤ h := by
      intro k hk
      rcases (I.dom h).1 ⟨k, hk⟩ with h1 | ⟨h1, -, h3⟩
      · rw [hf] at h1; cases h1
      · exact ⟨(I.fU _ h1).1, h1, h3⟩
    have prev_opp : ∀ q, U (opposite h) → E.m0.prev (opposite h) = some q → U q ∧ E.m0.target q = E.m0.target h ∧ E.m0.next q = some (opposite h) := by
      intro q hO hq
      obtain ⟨q', p1, p2, p3⟩ := S.prev _ hO
      rw [hq] at p1
      obtain rfl := Option.some.inj p1
      obtain ⟨m, m1, -, m3, -⟩ := S.next q p2
      rw [p3] at m1
      obtain rfl := Option.some.inj m1
      exact ⟨p2, by rw [← m3, (S.flip h hU).1], p3⟩
    cases hin : s.ihe n with
    | some k =>
      dsimp only
      obtain ⟨e1, e2, e3, e4⟩ := I.ends n k hin
      refine ⟨_, _, proj, rfl, I, (I.plain.ends e2).2.2.2.2, by rw [e3, n3], ?_⟩
      intro h0
      have hc : ¬ E.numCut ≤ h := by
        intro hc
        have nc := S.into h n hU hc hb hn
        have := I.back n h ((I.cut_dom nc).1 ⟨k, hin⟩) (by rw [n3]; exact hb) n4
        rw [hf] at this; cases this
      exact ⟨fun _ => Or.inl ⟨n, k, hn, hin, rfl⟩, fun h1 => absurd h1 hc, fun h1 => absurd h1 hc⟩
    | none =>
      dsimp only
      unfold resolve
      obtain ⟨l, l1, l2, l3⟩ := across_spec S I.key hb _ (fun g hg => hg)
      rw [l1, Option.bind_some]
      cases l with
      | nil =>
        dsimp only
        have nof : ∀ g, U g → E.m0.target g = E.m0.target h → s.flag g ≠ some true := by
          intro g hg ht hfg
          have := l3 g (by rw [← ht]; exact (S.listed g hg (by rw [ht]; exact hb)).1) hg hfg
          simp at this
        have na : ∀ g, U g → E.base ≤ E.m0.target g → ¬ At E s g (E.m0.target h) := by
          intro g hg hgt hA
          have h1 := (I.at_proj S hg hA).1
          rw [I.proj0 _ (S.bound h hU).2] at h1
          obtain ⟨g', g1, g2⟩ := I.at_flag S hg hgt hA
          exact nof g' (I.fU _ g1).1 (by rw [g2, h1]) g1
        refine ⟨_, _, proj, rfl, I, by have := (S.bound h hU).2; have := I.nV; omega, I.proj0 _ (S.bound h hU).2, ?_⟩
        intro h0
        refine ⟨fun _ => Or.inr ⟨fun m hm => by rw [hn] at hm; rw [← Option.some.inj hm]; exact hin, na⟩, fun _ _ => na, ?_⟩
        intro h1 h2 h3 q hq
        obtain ⟨q1, q2, q3⟩ := prev_opp q h2 hq
        have qc := S.outOf (opposite h) q h2 ((S.ge h).2 h1) (by rw [(S.flip h hU).1]; exact hb) hq
        rw [ihe_none, I.cut_dom qc]
        exact nof q q1 q2
      | cons g l =>
        dsimp only
        obtain ⟨g1, g2, g3⟩ := l2 g List.mem_cons_self
        by_cases hox : src E.m0 h < E.base
        · rw [decide_eq_true hox, if_neg (by simp)]
          have hc : E.numCut ≤ h := by
            by_contra hc
            have := (S.cut h hU (by omega)).1
            omega
          unfold sameSide
          rw [if_pos rfl]
          by_cases hT : (E.T (opposite h)).isEmpty = true
          · rw [if_pos hT, Option.bind_some]
            dsimp only
            refine ended_duplicate S I hU hb hn hin g1 g2 g3 ?_
            intro _ _ hO
            have := S.used _ hO
            simp at hT
            exact absurd hT this
          · rw [if_neg hT]
            have hO := S.other h hU (Or.inr hb) (by intro e; rw [e] at hT; exact hT rfl)
            obtain ⟨p, p1, -⟩ := S.prev _ hO
            obtain ⟨q1, q2, q3⟩ := prev_opp p hO p1
            obtain ⟨b, hbf⟩ := I.key p q1 (Or.inr (by rw [q2]; exact hb))
            rw [p1, Option.bind_some, hbf, Option.map_some, Option.bind_some]
            cases b with
            | true =>
              rw [if_pos rfl]
              dsimp only
              obtain ⟨k, hk⟩ := (I.dom p).2 (Or.inl hbf)
              obtain ⟨e1, e2, e3, e4⟩ := I.ends p k hk
              refine ⟨s.m1, s.m1.target k, proj, by unfold reuse; rw [hk]; rfl, I, (I.plain.ends e2).2.2.2.1, by rw [e4, q2], ?_⟩
              intro h0
              exfalso
              rcases I.fwd p _ hbf q3 (Or.inl (by rw [(S.flip h hU).1]; exact hb)) with h1 | h1
              · have := hpend hox p h1
                omega
              · exact (ihe_none.1 h0) ((I.dom h).2 (Or.inr ⟨h1, hU, hc⟩))
            | false =>
              rw [if_neg (by simp)]
              dsimp only
              refine ended_duplicate S I hU hb hn hin g1 g2 g3 ?_
              intro _ _ _ _ q hq
              rw [p1] at hq
              obtain rfl := Option.some.inj hq
              have qc := S.outOf (opposite h) p hO ((S.ge h).2 hc) (by rw [(S.flip h hU).1]; exact hb) p1
              rw [ihe_none, I.cut_dom qc, hbf]
              simp
        · rw [decide_eq_false hox]
          have hc : h < E.numCut := by
            by_contra hc
            rcases S.side h hU (by omega) with h1 | h1 <;> omega
          have hT : (E.T h).isEmpty = false := by
            have := S.used h hU
            cases hTh : E.T h with
            | nil => exact absurd hTh this
            | cons a b => rfl
          rw [hT, if_neg (by simp)]
          have fin : ∃ m b proj', duplicate s g = some (m, b) ∧ Ended d E U m10 pend s h m b proj' :=
            ended_duplicate S I hU hb hn hin g1 g2 g3 (fun _ h1 => by omega)
          unfold sameSide
          rw [if_neg (by simp), hn, Option.bind_some]
          by_cases hTn : (E.T (opposite n)).isEmpty = true
          · rw [if_pos hTn, Option.bind_some]
            exact fin
          · rw [if_neg hTn]
            have hO := S.other n n2 (Or.inl (by rw [n3]; exact hb)) (by intro e; rw [e] at hTn; exact hTn rfl)
            obtain ⟨b, hbf⟩ := I.key _ hO (Or.inr (by rw [(S.flip n n2).2, n3]; exact hb))
            rw [hbf, Option.map_some, Option.bind_some]
            by_cases hcase : b = true ∧ (¬ (E.base ≤ E.m0.target h ∧ E.base ≤ E.m0.target n) ∨ E.numCut ≤ n)
            · exfalso
              obtain ⟨c1, c2⟩ := hcase
              subst c1
              have nc : E.numCut ≤ n := by
                rcases c2 with c2 | c2
                · by_contra hnc
                  exact c2 ⟨hb, (S.cut n n2 (by omega)).2.1⟩
                · exact c2
              exact (ihe_none.1 hin) ((I.dom n).2 (Or.inr ⟨hbf, n2, nc⟩))
            · rw [if_neg hcase]
              exact fin
  · rw [if_neg hb]
    refine ⟨_, _, proj, rfl, I, by have := (S.bound h hU).2; have := I.nV; omega, I.proj0 _ (S.bound h hU).2, ?_⟩
    intro _
    exact ⟨fun h1 => absurd h1 hb, fun _ h1 => absurd h1 hb, fun _ _ h1 => absurd h1 hb⟩

/-- What a visit does to the flags and to the queue. -/
structure Visited (d : P) (E : Env P) (U : Nat → Prop) (m10 : Mesh P) (proj : Nat → Nat) (init h n : Nat) (s s' : St P) : Prop where
  inv : Inv d E U m10 proj (some h) s'
  flag : s'.flag = fun x => if x = h then some true else s.flag x
  queue : s'.queue = s.queue ∨ (s'.queue = opposite h :: s.queue ∧ U (opposite h) ∧ E.base ≤ src E.m0 h ∧ E.m0.target h < E.base ∧ s.flag (opposite h) = some false ∧ (n = init ∨ ¬ E.base ≤ E.m0.target n))

theorem enqueue_spec (S : Scene E U) {init h n : Nat} (hU : U h) (key : ∀ x, U x → isInter E x → ∃ b, s.flag x = some b) :
    ∃ q, enqueue E s init h n = some { s with queue := q } ∧
      (q = s.queue ∨ (q = opposite h :: s.queue ∧ U (opposite h) ∧ E.base ≤ src E.m0 h ∧ E.m0.target h < E.base ∧ s.flag (opposite h) = some false ∧ (n = init ∨ ¬ E.base ≤ E.m0.target n))) := by
  unfold enqueue
  by_cases hc : E.base ≤ src E.m0 h ∧ E.m0.target h < E.base ∧ E.T (opposite h) ≠ []
  · rw [if_pos hc]
    have hO := S.other h hU (Or.inl hc.1) hc.2.2
    obtain ⟨b, hb⟩ := key _ hO (Or.inr (by rw [(S.flip h hU).2]; exact hc.1))
    rw [hb, Option.map_some]
    split
    · rename_i h1
      refine ⟨_, rfl, Or.inr ⟨rfl, hO, hc.1, hc.2.1, by rw [h1.1], ?_⟩⟩
      rcases h1.2 with h2 | h2
      · exact Or.inl h2.2
      · exact Or.inr h2
    · exact ⟨s.queue, rfl, Or.inl rfl⟩
  · rw [if_neg hc]
    exact ⟨s.queue, rfl, Or.inl rfl⟩

theorem visit_spec (S : Scene E U) (I : Inv d E U m10 proj pend s) {init h n : Nat} (hU : U h) (hi : isInter E h) (hf : s.flag h = some false) (hn : E.m0.next h = some n)
    (hx : E.base ≤ src E.m0 h → h ≠ init ∧ ∃ p, pend = some p ∧ E.m0.prev h = some p ∧ s.flag p = some true) (hpend : pend = none ∨ ∃ p, pend = some p ∧ E.m0.next p = some h ∧ U p) :
    ∃ s' proj', visit E init h n s = some s' ∧ Visited d E U m10 proj' init h n s s' := by
  have ho : src E.m0 h < E.base → ∀ p, pend = some p → E.m0.target p < E.base := by
    intro hs p hp
    rcases hpend with h1 | ⟨p', h1, h2, h3⟩
    · rw [h1] at hp; cases hp
    · rw [h1] at hp
      obtain rfl := Option.some.inj hp
      obtain ⟨n', n1, -, n3, -⟩ := S.next p' h3
      rw [h2] at n1
      obtain rfl := Option.some.inj n1
      omega
  obtain ⟨m, b, proj', e1, R⟩ := endOf_spec S I hU hf hn ho
  have J := R.inv
  have hpend : pend = none ∨ ∃ p, pend = some p ∧ E.m0.next p = some h := by
    rcases hpend with h1 | ⟨p, h1, h2, -⟩
    · exact Or.inl h1
    · exact Or.inr ⟨p, h1, h2⟩
  -- the start
  have st : ∃ a, startOf E { s with m1 := m } init h = some (m, a) ∧ a < m.nV ∧ proj' a = src E.m0 h ∧
      (E.base ≤ src E.m0 h → ∃ p k, E.m0.prev h = some p ∧ s.flag p = some true ∧ s.ihe p = some k ∧ m.target k = a) := by
    unfold startOf
    by_cases hs : E.base ≤ src E.m0 h
    · rw [if_pos hs]
      obtain ⟨hni, p, p1, p2, p3⟩ := hx hs
      obtain ⟨k, hk⟩ := (I.dom p).2 (Or.inl p3)
      obtain ⟨f1, f2, f3, f4⟩ := J.ends p k hk
      rw [if_neg hni, p2, Option.bind_some]
      dsimp only
      rw [hk, Option.map_some]
      obtain ⟨p', q1, q2, q3⟩ := S.prev h hU
      rw [p2] at q1
      obtain rfl := Option.some.inj q1
      obtain ⟨n', m1, m2, m3, m4⟩ := S.next p q2
      rw [q3] at m1
      obtain rfl := Option.some.inj m1
      exact ⟨_, rfl, (J.plain.ends f2).2.2.2.1, by rw [f4, m3], fun _ => ⟨p, k, rfl, p3, hk, rfl⟩⟩
    · rw [if_neg hs]
      exact ⟨_, rfl, by have := (S.bound h hU).1; have := J.nV; dsimp only at this; omega, J.proj0 _ (S.bound h hU).1, fun h1 => absurd h1 hs⟩
  obtain ⟨a, a1, a2, a3, a4⟩ := st
  unfold visit
  rw [e1, Option.bind_some]
  dsimp only
  rw [a1, Option.bind_some]
  dsimp only
  -- the invariant with the version of `h`
  have main : Inv d E U m10 proj' (some h) { makeEdge E { s with m1 := m } h a b with flag := fun x => if x = h then some true else s.flag x } ∧
      (makeEdge E { s with m1 := m } h a b).flag = s.flag ∧ (makeEdge E { s with m1 := m } h a b).queue = s.queue := by
    refine ⟨?_, ?_, ?_⟩
    · cases hD : s.ihe h with
      | none =>
        obtain ⟨g1, g2, g3⟩ := R.grow hD
        exact J.grow S hU hi (by show s.flag h ≠ _; rw [hf]; simp) hD a2 R.lt a3 R.pb a4 g1 g2 g3 hpend
      | some k =>
        have hc : ¬ (h < E.numCut ∨ s.ihe h = none) := by
          rintro (h1 | h1)
          · have := (I.cut_dom h1).1 ⟨k, hD⟩
            rw [hf] at this; cases this
          · rw [hD] at h1; cases h1
        unfold makeEdge
        dsimp only
        rw [if_neg hc]
        refine J.skip S hU hi ⟨k, hD⟩ ?_ hpend
        intro hs
        obtain ⟨-, p, p1, p2, p3⟩ := hx hs
        exact ⟨p, p2, p3⟩
    · unfold makeEdge; split <;> rfl
    · unfold makeEdge; split <;> rfl
  obtain ⟨K, kf, kq⟩ := main
  generalize makeEdge E { s with m1 := m } h a b = s2 at *
  obtain ⟨q, q1, q2⟩ := enqueue_spec (s := s2) (init := init) (n := n) S hU (by rw [kf]; exact I.key)
  rw [q1, Option.bind_some]
  unfold done
  dsimp only
  rw [kf, hf, Option.map_some]
  rw [kf, kq] at q2
  exact ⟨_, proj', rfl, K.queue q, rfl, q2⟩

end Mcut.Split
