import Verif.Lemmas.C77Inv

/-! Lemmas for C77: a halfedge gets its version. -/
namespace Mcut.Split
open Mcut.Hmesh Mcut.Extract
open Mcut.Trace (src src_of)
variable {P : Type} {d : P} {E : Env P} {U : Nat → Prop} {m10 : Mesh P} {proj : Nat → Nat} {pend : Option Nat} {s : St P}

/-- What `makeEdge` makes of `ihe`. -/
theorem makeEdge_eq (S : Scene E U) (I : Inv d E U m10 proj pend s) {h a b : Nat} (hU : U h) (hi : isInter E h) (hf : s.flag h ≠ some true) (hD : s.ihe h = none) (ha : a < s.m1.nV) (hb : b < s.m1.nV) (hab : a ≠ b) :
    ∃ i2, makeEdge E s h a b = { s with m1 := (s.m1.addEdge a b).1, ihe := i2 } ∧ i2 h = some (2 * s.m1.nE) ∧
      (E.numCut ≤ h → U (opposite h) → i2 (opposite h) = some (opposite (2 * s.m1.nE)) ∧ s.ihe (opposite h) = none) ∧
      ∀ x, x = h ∨ (E.numCut ≤ h ∧ U (opposite h) ∧ x = opposite h) ∨ (x ≠ h ∧ ¬ (E.numCut ≤ h ∧ U (opposite h) ∧ x = opposite h) ∧ i2 x = s.ihe x) := by
  obtain ⟨a1, -⟩ := I.plain.addEdge ha hb hab
  unfold makeEdge
  rw [if_pos (Or.inr hD)]
  simp only [hD, and_true, a1]
  have hne := opposite_ne h
  have ho : E.numCut ≤ h → s.ihe (opposite h) = none := by
    intro hc
    rw [ihe_none, I.dom, opposite_opposite]
    rintro (h1 | ⟨h1, -⟩)
    · exact (ihe_none.1 hD) ((I.dom h).2 (Or.inr ⟨h1, hU, hc⟩))
    · exact hf h1
  have hT : E.T (opposite h) ≠ [] ↔ U (opposite h) := ⟨S.other h hU hi, S.used _⟩
  refine ⟨_, rfl, ?_, ?_, ?_⟩
  · rw [if_neg (by rintro ⟨-, -, h3, -⟩; exact hne h3.symm), if_pos rfl]
  · intro h1 h2
    refine ⟨?_, ho h1⟩
    rw [if_pos ⟨h1, hT.2 h2, rfl, by rw [if_neg hne]; exact ho h1⟩]
  · intro x
    by_cases c1 : x = h
    · exact Or.inl c1
    · by_cases c2 : E.numCut ≤ h ∧ U (opposite h) ∧ x = opposite h
      · exact Or.inr (Or.inl c2)
      · refine Or.inr (Or.inr ⟨c1, c2, ?_⟩)
        rw [if_neg (by rintro ⟨h1, h2, h3, -⟩; exact c2 ⟨h1, hT.1 h2, h3⟩), if_neg c1]

theorem Inv.grow (S : Scene E U) (I : Inv d E U m10 proj pend s) {h a b : Nat} (hU : U h) (hi : isInter E h) (hf : s.flag h ≠ some true) (hD : s.ihe h = none) (ha : a < s.m1.nV) (hb : b < s.m1.nV)
    (pa : proj a = src E.m0 h) (pb : proj b = E.m0.target h)
    (hp : E.base ≤ src E.m0 h → ∃ p k, E.m0.prev h = some p ∧ s.flag p = some true ∧ s.ihe p = some k ∧ s.m1.target k = a)
    (hn : E.base ≤ E.m0.target h → (∃ n k, E.m0.next h = some n ∧ s.ihe n = some k ∧ src s.m1 k = b) ∨
      ((∀ n, E.m0.next h = some n → s.ihe n = none) ∧ ∀ g, U g → E.base ≤ E.m0.target g → ¬ At E s g b))
    (hn' : E.numCut ≤ h → E.base ≤ E.m0.target h → ∀ g, U g → E.base ≤ E.m0.target g → ¬ At E s g b)
    (hq : E.numCut ≤ h → U (opposite h) → E.base ≤ E.m0.target h → ∀ q, E.m0.prev (opposite h) = some q → s.ihe q = none)
    (hpend : pend = none ∨ ∃ p, pend = some p ∧ E.m0.next p = some h) :
    Inv d E U m10 proj (some h) { makeEdge E s h a b with flag := fun x => if x = h then some true else s.flag x } := by
  have hab : a ≠ b := by intro e; rw [e] at pa; exact S.apart h hU (by rw [← pa, ← pb])
  obtain ⟨i2, e, ih, io, ix⟩ := makeEdge_eq S I hU hi hf hD ha hb hab
  obtain ⟨-, a2, a3, a4, a5, a6, a7, a8, a9, a10⟩ := I.plain.addEdge ha hb hab
  rw [e]
  generalize (s.m1.addEdge a b).1 = me at *
  dsimp only
  have ek : edgeOf (2 * s.m1.nE) = s.m1.nE := by unfold edgeOf; omega
  have ek' : edgeOf (opposite (2 * s.m1.nE)) = s.m1.nE := by rw [edgeOf_opposite, ek]
  -- the values of the new map
  have val : ∀ x k, i2 x = some k → (x = h ∧ k = 2 * s.m1.nE) ∨ (E.numCut ≤ h ∧ U (opposite h) ∧ x = opposite h ∧ k = opposite (2 * s.m1.nE)) ∨ (x ≠ h ∧ s.ihe x = some k) := by
    intro x k hk
    rcases ix x with h1 | ⟨h1, h2, h3⟩ | ⟨h0, h1, h2⟩
    · subst h1; rw [ih] at hk; exact Or.inl ⟨rfl, (Option.some.inj hk).symm⟩
    · rw [h3, (io h1 h2).1] at hk; exact Or.inr (Or.inl ⟨h1, h2, h3, (Option.some.inj hk).symm⟩)
    · rw [h2] at hk; exact Or.inr (Or.inr ⟨h0, hk⟩)
  have keep : ∀ x k, s.ihe x = some k → i2 x = some k := by
    intro x k hk
    rcases ix x with h1 | ⟨h1, h2, h3⟩ | ⟨-, -, h2⟩
    · rw [h1, hD] at hk; cases hk
    · rw [h3, (io h1 h2).2] at hk; cases hk
    · rw [h2]; exact hk
  -- ends of old halfedges
  have oe : ∀ {x k}, s.ihe x = some k → me.target k = s.m1.target k ∧ src me k = src s.m1 k := fun hk => a6 _ (I.ends _ _ hk).2.1
  have mono : ∀ x, s.flag x = some true → (if x = h then some true else s.flag x) = some true := fun x hx => by split; rfl; exact hx
  have cases' : ∀ x, (if x = h then some true else s.flag x) = some true → x = h ∨ s.flag x = some true := by
    intro x hx
    split at hx
    · left; assumption
    · right; exact hx
  obtain ⟨fl1, fl2⟩ := S.flip h hU
  -- the flag of the opposite is not set if `h` is on the boundary
  have fo : E.numCut ≤ h → s.flag (opposite h) ≠ some true := fun hc h1 => ihe_none.1 hD ((I.dom h).2 (Or.inr ⟨h1, hU, hc⟩))
  -- the halfedge after the opposite has no version
  have hno : E.numCut ≤ h → U (opposite h) → E.base ≤ src E.m0 h → ∀ n, E.m0.next (opposite h) = some n → s.ihe n = none := by
    intro hc hO hb' n hn1
    obtain ⟨n', n1, n2, n3, n4⟩ := S.next _ hO
    rw [hn1] at n1
    obtain rfl := Option.some.inj n1
    have nc := S.into _ _ hO ((S.ge h).2 hc) (by rw [fl2]; exact hb') hn1
    rw [ihe_none, I.cut_dom nc]
    intro hfn
    exact fo hc (I.back _ _ hfn (by rw [n3, fl2]; exact hb') n4)
  -- new versions of points
  have at' : ∀ g v, U g → E.base ≤ E.m0.target g → At E { s with m1 := me, ihe := i2, flag := fun x => if x = h then some true else s.flag x } g v →
      At E s g v ∨ (g = h ∧ v = b ∧ E.base ≤ E.m0.target h) ∨ (E.numCut ≤ h ∧ U (opposite h) ∧ ((g = opposite h ∧ v = a ∧ E.base ≤ src E.m0 h) ∨ (E.m0.next g = some (opposite h) ∧ v = b ∧ E.base ≤ E.m0.target h))) := by
    rintro g v hg hgt (⟨k, h1, h2⟩ | ⟨n, k, h1, h2, h3⟩)
    · dsimp only at h1 h2
      rcases val g k h1 with ⟨rfl, rfl⟩ | ⟨v1, v2, rfl, rfl⟩ | ⟨-, v1⟩
      · rw [a8] at h2; exact Or.inr (Or.inl ⟨rfl, h2.symm, hgt⟩)
      · rw [a10] at h2; exact Or.inr (Or.inr ⟨v1, v2, Or.inl ⟨rfl, h2.symm, by rw [fl2] at hgt; exact hgt⟩⟩)
      · rw [(oe v1).1] at h2; exact Or.inl (Or.inl ⟨k, v1, h2⟩)
    · dsimp only at h2 h3
      obtain ⟨n', n1, n2, n3, n4⟩ := S.next g hg
      rw [h1] at n1
      obtain rfl := Option.some.inj n1
      rcases val n k h2 with ⟨rfl, rfl⟩ | ⟨v1, v2, rfl, rfl⟩ | ⟨-, v1⟩
      · rw [a7] at h3
        left
        obtain ⟨p, k, p1, p2, p3, p4⟩ := hp (by rw [n3]; exact hgt)
        rw [n4] at p1
        obtain rfl := Option.some.inj p1
        exact Or.inl ⟨k, p3, by rw [p4]; exact h3⟩
      · rw [a9] at h3
        exact Or.inr (Or.inr ⟨v1, v2, Or.inr ⟨h1, h3.symm, by rw [← fl1, n3]; exact hgt⟩⟩)
      · rw [(oe v1).2] at h3; exact Or.inl (Or.inr ⟨n, k, h1, v1, h3⟩)
  -- the corner before `h`
  have atp : ∀ g, U g → E.base ≤ E.m0.target g → E.base ≤ src E.m0 h → E.numCut ≤ h → At E s g a → E.m0.next g = some h ∨ g = opposite h := by
    intro g hg hgt hs hc hA
    obtain ⟨p, k, p1, p2, p3, p4⟩ := hp hs
    obtain ⟨p', q1, q2, q3⟩ := S.prev h hU
    rw [p1] at q1
    obtain rfl := Option.some.inj q1
    have pc := S.outOf h p hU hc hs p1
    rcases I.sep g p a hg q2 hgt hA (Or.inl ⟨k, p3, p4⟩) with e1 | ⟨-, e2⟩ | ⟨e1, -⟩
    · left; rw [e1]; exact q3
    · right
      rw [q3] at e2
      rw [Option.some.inj e2, opposite_opposite]
    · omega
  refine ⟨a2, by rw [a3]; exact I.nV, (by show m10.nE ≤ me.nE; have := I.nE; omega), ?_, I.proj0, ?_, ?_, ?_, ?_, ?_, ?_, ?_, ?_, ?_, ?_, ?_, ?_, ?_⟩
  · intro k hk
    have hk' : edgeOf k < s.m1.nE := by have := I.nE; omega
    rw [(a6 k hk').1, (a6 k hk').2]; exact I.old k hk
  · intro v h1 h2; exact I.point v h1 (by dsimp only at h2; rw [a3] at h2; exact h2)
  · intro v hv; dsimp only at hv ⊢; rw [a4]; exact I.pos v (by rw [a3] at hv; exact hv)
  · intro x h1 h2
    dsimp only
    split
    · exact ⟨_, rfl⟩
    · exact I.key x h1 h2
  · intro x hx
    rcases cases' x hx with rfl | hx
    · exact ⟨hU, hi⟩
    · exact I.fU x hx
  · intro x p hx h1 h2
    rcases cases' x hx with rfl | hx
    · obtain ⟨p', k, p1, p2, -⟩ := hp h1
      rw [h2] at p1
      obtain rfl := Option.some.inj p1
      exact mono _ p2
    · exact mono _ (I.back x p hx h1 h2)
  · intro x n hx h2 h1
    rcases cases' x hx with rfl | hx
    · exact Or.inl rfl
    · rcases I.fwd x n hx h2 h1 with h3 | h3
      · right
        rcases hpend with h4 | ⟨p, h4, h5⟩
        · rw [h4] at h3; cases h3
        · rw [h3] at h4
          obtain rfl := Option.some.inj h4
          rw [h2] at h5
          dsimp only
          rw [if_pos (Option.some.inj h5)]
      · exact Or.inr (mono _ h3)
  · intro x
    dsimp only
    constructor
    · rintro ⟨k, hk⟩
      rcases val x k hk with ⟨rfl, -⟩ | ⟨v1, v2, rfl, -⟩ | ⟨v0, v1⟩
      · left; rw [if_pos rfl]
      · right; rw [opposite_opposite, if_pos rfl]; exact ⟨rfl, v2, (S.ge h).2 v1⟩
      · rcases (I.dom x).1 ⟨k, v1⟩ with h1 | ⟨h1, h2⟩
        · exact Or.inl (mono _ h1)
        · exact Or.inr ⟨mono _ h1, h2⟩
    · rintro (h1 | ⟨h1, h2, h3⟩)
      · rcases cases' x h1 with rfl | h1
        · exact ⟨_, ih⟩
        · obtain ⟨k, hk⟩ := (I.dom x).2 (Or.inl h1)
          exact ⟨k, keep x k hk⟩
      · rcases cases' _ h1 with h1 | h1
        · have hx : x = opposite h := by rw [← h1, opposite_opposite]
          have hc : E.numCut ≤ h := by rw [← h1]; exact (S.ge x).2 h3
          rw [hx] at h2 ⊢
          exact ⟨_, (io hc h2).1⟩
        · obtain ⟨k, hk⟩ := (I.dom x).2 (Or.inr ⟨h1, h2, h3⟩)
          exact ⟨k, keep x k hk⟩
  · intro x k hk
    dsimp only at hk ⊢
    have nE := I.nE
    rcases val x k hk with ⟨rfl, rfl⟩ | ⟨v1, v2, rfl, rfl⟩ | ⟨v0, v1⟩
    · rw [ek, a7, a8]; exact ⟨by omega, by omega, pa, pb⟩
    · rw [ek', a9, a10, fl1, fl2]; exact ⟨by omega, by omega, pb, pa⟩
    · obtain ⟨e1, e2, e3, e4⟩ := I.ends x k v1
      rw [(oe v1).1, (oe v1).2]; exact ⟨e1, by omega, e3, e4⟩
  · intro x k k' hk hk' hc
    dsimp only at hk hk'
    rcases val x k hk with ⟨rfl, rfl⟩ | ⟨v1, v2, rfl, rfl⟩ | ⟨v0, v1⟩
    · rcases val _ k' hk' with ⟨w0, -⟩ | ⟨-, -, -, w⟩ | ⟨w0, w1⟩
      · exact absurd w0 (opposite_ne _)
      · exact w
      · exfalso
        rcases (I.dom _).1 ⟨k', w1⟩ with h1 | ⟨h1, -⟩
        · exact fo hc h1
        · rw [opposite_opposite] at h1; exact hf h1
    · rw [opposite_opposite] at hk'
      rw [ih] at hk'
      rw [opposite_opposite]; exact (Option.some.inj hk').symm
    · rcases val _ k' hk' with ⟨w0, rfl⟩ | ⟨-, -, w0, -⟩ | ⟨w0, w1⟩
      · exfalso
        have hx : x = opposite h := by rw [← w0, opposite_opposite]
        have hcc : E.numCut ≤ h := by rw [← w0]; exact (S.ge x).2 hc
        subst hx
        rcases (I.dom _).1 ⟨k, v1⟩ with h1 | ⟨h1, -⟩
        · exact fo hcc h1
        · rw [opposite_opposite] at h1; exact hf h1
      · exfalso
        have : x = h := by have := congrArg opposite w0; rw [opposite_opposite, opposite_opposite] at this; exact this
        exact v0 this
      · exact I.opp x k k' v1 w1 hc
  · intro x k n k' hk hxn hk' ht
    dsimp only at hk hk' ⊢
    have hxU : U x := by
      rcases val x k hk with ⟨rfl, -⟩ | ⟨-, v2, rfl, -⟩ | ⟨-, v1⟩
      · exact hU
      · exact v2
      · rcases (I.dom x).1 ⟨k, v1⟩ with h1 | ⟨-, h1, -⟩
        · exact (I.fU x h1).1
        · exact h1
    obtain ⟨n', n1, n2, n3, n4⟩ := S.next x hxU
    rw [hxn] at n1
    obtain rfl := Option.some.inj n1
    have nx : n ≠ x := by intro e; rw [e] at n3; exact S.apart x hxU n3
    rcases val x k hk with ⟨rfl, rfl⟩ | ⟨v1, v2, rfl, rfl⟩ | ⟨v0, v1⟩
    · rw [a8]
      rcases val n k' hk' with ⟨w0, rfl⟩ | ⟨w1, w2, w0, rfl⟩ | ⟨w0, w1⟩
      · exact absurd w0 nx
      · exact a9.symm
      · rw [(oe w1).2]
        rcases hn ht with ⟨m, k2, m1, m2, m3⟩ | ⟨m1, -⟩
        · rw [hxn] at m1
          obtain rfl := Option.some.inj m1
          rw [w1] at m2
          obtain rfl := Option.some.inj m2
          exact m3.symm
        · rw [m1 n hxn] at w1; cases w1
    · rw [a10]
      rcases val n k' hk' with ⟨w0, rfl⟩ | ⟨w1, w2, w0, rfl⟩ | ⟨w0, w1⟩
      · exact a7.symm
      · exact absurd w0 nx
      · rw [fl2] at ht
        rw [hno v1 v2 ht n hxn] at w1; cases w1
    · rw [(oe v1).1]
      rcases val n k' hk' with ⟨rfl, rfl⟩ | ⟨w1, w2, rfl, rfl⟩ | ⟨w0, w1⟩
      · rw [a7]
        obtain ⟨p, k2, p1, p2, p3, p4⟩ := hp (by rw [n3]; exact ht)
        rw [n4] at p1
        obtain rfl := Option.some.inj p1
        rw [v1] at p3
        obtain rfl := Option.some.inj p3
        exact p4
      · rw [fl1] at n3
        have := hq w1 w2 (by rw [n3]; exact ht) x n4
        rw [v1] at this; cases this
      · rw [(oe w1).2]; exact I.closed x k n k' v1 hxn w1 ht
  · intro g g' v hg hg' hgt hA hA'
    have hgt' : E.base ≤ E.m0.target g' := by
      have I' : ∀ x, U x → ∀ {w}, At E { s with m1 := me, ihe := i2, flag := fun x => if x = h then some true else s.flag x } x w → proj w = E.m0.target x := by
        rintro x hx w (⟨k, h1, rfl⟩ | ⟨n, k, h1, h2, rfl⟩)
        · dsimp only at h1 ⊢
          rcases val x k h1 with ⟨rfl, rfl⟩ | ⟨v1, v2, rfl, rfl⟩ | ⟨-, v1⟩
          · rw [a8, pb]
          · rw [a10, pa, fl2]
          · rw [(oe v1).1]; exact (I.ends x k v1).2.2.2
        · dsimp only at h2 ⊢
          obtain ⟨n', n1, n2, n3, n4⟩ := S.next x hx
          rw [h1] at n1
          obtain rfl := Option.some.inj n1
          rw [← n3]
          rcases val n k h2 with ⟨rfl, rfl⟩ | ⟨v1, v2, rfl, rfl⟩ | ⟨-, v1⟩
          · rw [a7, pa]
          · rw [a9, pb, fl1]
          · rw [(oe v1).2]; exact (I.ends n k v1).2.2.1
      rw [← I' g' hg' hA', I' g hg hA]; exact hgt
    -- the new corner at the end of `h`
    have newb : ∀ x, U x → E.base ≤ E.m0.target x → E.base ≤ E.m0.target h → At E s x b → Beside E h x := by
      intro x hx hxt ht hxA
      rcases hn ht with ⟨m, k2, m1, m2, m3⟩ | ⟨-, m2⟩
      · exact I.sep h x b hU hx ht (Or.inr ⟨m, k2, m1, m2, m3⟩) hxA
      · exact absurd hxA (m2 x hx hxt)
    have opn : ∀ {x}, E.m0.next x = some (opposite h) → E.numCut ≤ h → Mate E h x := fun h1 h2 => ⟨h2, h1⟩
    have same : ∀ {x y}, U x → U y → E.m0.next x = some (opposite h) → E.m0.next y = some (opposite h) → x = y := by
      intro x y hx hy h1 h2
      obtain ⟨n1, e1, -, -, e4⟩ := S.next x hx
      obtain ⟨n2, f1, -, -, f4⟩ := S.next y hy
      rw [h1] at e1; rw [h2] at f1
      obtain rfl := Option.some.inj e1
      obtain rfl := Option.some.inj f1
      rw [e4] at f4; exact Option.some.inj f4
    have old : ∀ x w, U x → E.base ≤ E.m0.target x → At E s x w → At E s x w := fun _ _ _ _ h => h
    have ab : ∀ {w : Nat}, w = a → w = b → False := fun h1 h2 => hab (h1.symm.trans h2)
    have sides : E.numCut ≤ h → E.base ≤ src E.m0 h → E.base ≤ E.m0.target h → False := by
      intro h1 h2 h3
      rcases S.side h hU h1 with h4 | h4 <;> omega
    rcases at' g v hg hgt hA with o1 | ⟨g1, g2, g3⟩ | ⟨c1, c2, ⟨g1, g2, g3⟩ | ⟨g1, g2, g3⟩⟩
    · rcases at' g' v hg' hgt' hA' with o2 | ⟨f1, f2, f3⟩ | ⟨d1, d2, ⟨f1, f2, f3⟩ | ⟨f1, f2, f3⟩⟩
      · exact I.sep g g' v hg hg' hgt o1 o2
      · rw [f1]; rw [f2] at o1; exact (newb g hg hgt f3 o1).symm
      · rw [f2] at o1
        rcases atp g hg hgt f3 d1 o1 with h1 | h1
        · rw [f1]; exact Or.inr (Or.inr ⟨(S.ge h).2 d1, by rw [opposite_opposite]; exact h1⟩)
        · rw [f1]; exact Or.inl h1
      · rw [f2] at o1
        exact absurd o1 (hn' d1 f3 g hg hgt)
    · rcases at' g' v hg' hgt' hA' with o2 | ⟨f1, f2, f3⟩ | ⟨d1, d2, ⟨f1, f2, f3⟩ | ⟨f1, f2, f3⟩⟩
      · rw [g1]; rw [g2] at o2; exact newb g' hg' hgt' g3 o2
      · exact Or.inl (g1.trans f1.symm)
      · exact (ab f2 g2).elim
      · rw [g1]; exact Or.inr (Or.inl (opn f1 d1))
    · rcases at' g' v hg' hgt' hA' with o2 | ⟨f1, f2, f3⟩ | ⟨d1, d2, ⟨f1, f2, f3⟩ | ⟨f1, f2, f3⟩⟩
      · rw [g2] at o2
        rcases atp g' hg' hgt' g3 c1 o2 with h1 | h1
        · rw [g1]; exact Or.inr (Or.inl ⟨(S.ge h).2 c1, by rw [opposite_opposite]; exact h1⟩)
        · rw [g1]; exact Or.inl h1.symm
      · exact (ab g2 f2).elim
      · exact Or.inl (g1.trans f1.symm)
      · exact (ab g2 f2).elim
    · rcases at' g' v hg' hgt' hA' with o2 | ⟨f1, f2, f3⟩ | ⟨d1, d2, ⟨f1, f2, f3⟩ | ⟨f1, f2, f3⟩⟩
      · rw [g2] at o2
        exact absurd o2 (hn' c1 g3 g' hg' hgt')
      · rw [f1]; exact (Or.inr (Or.inr (opn g1 c1)) : Beside E g h)
      · exact (ab f2 g2).elim
      · exact Or.inl (same hg hg' g1 f1)
  · intro x k x' k' hk hk' hkk
    dsimp only at hk hk'
    rcases val x k hk with ⟨rfl, rfl⟩ | ⟨v1, v2, rfl, rfl⟩ | ⟨v0, v1⟩
    · rcases val x' k' hk' with ⟨rfl, rfl⟩ | ⟨w1, w2, w3, rfl⟩ | ⟨w0, w1⟩
      · exact Or.inl rfl
      · exact Or.inr ⟨w3, w1⟩
      · have := (I.ends _ _ w1).2.1
        rw [← hkk, ek] at this; omega
    · rcases val x' k' hk' with ⟨rfl, rfl⟩ | ⟨w1, w2, w3, rfl⟩ | ⟨w0, w1⟩
      · exact Or.inr ⟨(opposite_opposite _).symm, (S.ge _).2 v1⟩
      · exact Or.inl w3.symm
      · have := (I.ends _ _ w1).2.1
        rw [← hkk, ek'] at this; omega
    · have h1 := (I.ends _ _ v1).2.1
      rcases val x' k' hk' with ⟨rfl, rfl⟩ | ⟨w1, w2, w3, rfl⟩ | ⟨w0, w1⟩
      · rw [hkk, ek] at h1; omega
      · rw [hkk, ek'] at h1; omega
      · exact I.one x k x' k' v1 w1 hkk
  · intro k h1 h2
    dsimp only at h2 ⊢
    rw [a5] at h2
    by_cases hk : edgeOf k = s.m1.nE
    · exact ⟨h, _, ih, by rw [ek, hk]⟩
    · obtain ⟨x, k', x1, x2⟩ := I.all k h1 (by omega)
      exact ⟨x, k', keep x k' x1, x2⟩

end Mcut.Split
