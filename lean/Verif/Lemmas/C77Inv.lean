import Verif.Lemmas.C77Mesh

/-! Lemmas for C77: the invariant of the walks. -/
namespace Mcut.Split
open Mcut.Hmesh Mcut.Extract
open Mcut.Trace (src src_of)
variable {P : Type} {d : P} {E : Env P} {U : Nat → Prop}

/-- What the walks rely on: `U` are the halfedges of the polygons of the source mesh. -/
structure Scene (E : Env P) (U : Nat → Prop) : Prop where
  even : E.numCut % 2 = 0
  base : E.base ≤ E.m0.nV
  flip : ∀ h, U h → src E.m0 (opposite h) = E.m0.target h ∧ E.m0.target (opposite h) = src E.m0 h
  apart : ∀ h, U h → src E.m0 h ≠ E.m0.target h
  bound : ∀ h, U h → src E.m0 h < E.m0.nV ∧ E.m0.target h < E.m0.nV
  next : ∀ h, U h → ∃ n, E.m0.next h = some n ∧ U n ∧ src E.m0 n = E.m0.target h ∧ E.m0.prev n = some h
  prev : ∀ h, U h → ∃ p, E.m0.prev h = some p ∧ U p ∧ E.m0.next p = some h
  cut : ∀ h, U h → h < E.numCut → E.base ≤ src E.m0 h ∧ E.base ≤ E.m0.target h ∧ U (opposite h)
  side : ∀ h, U h → E.numCut ≤ h → src E.m0 h < E.base ∨ E.m0.target h < E.base
  into : ∀ h n, U h → E.numCut ≤ h → E.base ≤ E.m0.target h → E.m0.next h = some n → n < E.numCut
  outOf : ∀ h p, U h → E.numCut ≤ h → E.base ≤ src E.m0 h → E.m0.prev h = some p → p < E.numCut
  used : ∀ h, U h → E.T h ≠ []
  other : ∀ h, U h → isInter E h → E.T (opposite h) ≠ [] → U (opposite h)
  incoming : ∀ v, E.base ≤ v → ∀ g ∈ E.incoming v, E.m0.target g = v ∧ ∃ b, strict E g = some b ∧ (b = false → E.T g ≠ [] → U g)
  listed : ∀ g, U g → E.base ≤ E.m0.target g → g ∈ E.incoming (E.m0.target g) ∧ strict E g = some false

/-- Spec of the walks: the version of the point in which `h` ends. -/
def At (E : Env P) (s : St P) (h v : Nat) : Prop :=
  (∃ k, s.ihe h = some k ∧ s.m1.target k = v) ∨ ∃ n k, E.m0.next h = some n ∧ s.ihe n = some k ∧ src s.m1 k = v

/-- `h` ends in a point, on the boundary of its face, and `h'` is the halfedge on the other side of this piece of the boundary that ends in this point too. -/
def Mate (E : Env P) (h h' : Nat) : Prop := E.numCut ≤ h ∧ E.m0.next h' = some (opposite h)

/-- The two corners are on the same side of the cut. -/
def Beside (E : Env P) (h h' : Nat) : Prop := h = h' ∨ Mate E h h' ∨ Mate E h' h

/-- The invariant. `m10` is "m1" before the walks, `proj` names the vertex of "m0" that a vertex of "m1" is a copy of, `pend` is the last halfedge of a walk that has not
come to an end. -/
structure Inv (d : P) (E : Env P) (U : Nat → Prop) (m10 : Mesh P) (proj : Nat → Nat) (pend : Option Nat) (s : St P) : Prop where
  plain : Plain d s.m1
  nV : E.m0.nV ≤ s.m1.nV
  nE : m10.nE ≤ s.m1.nE
  old : ∀ k, edgeOf k < m10.nE → s.m1.target k = m10.target k ∧ src s.m1 k = src m10 k
  proj0 : ∀ v, v < E.m0.nV → proj v = v
  point : ∀ v, E.m0.nV ≤ v → v < s.m1.nV → E.base ≤ proj v ∧ proj v < E.m0.nV
  pos : ∀ v, v < s.m1.nV → s.m1.pos v = E.m0.pos (proj v)
  key : ∀ h, U h → isInter E h → ∃ b, s.flag h = some b
  fU : ∀ h, s.flag h = some true → U h ∧ isInter E h
  back : ∀ h p, s.flag h = some true → E.base ≤ src E.m0 h → E.m0.prev h = some p → s.flag p = some true
  fwd : ∀ h n, s.flag h = some true → E.m0.next h = some n → isInter E n → pend = some h ∨ s.flag n = some true
  dom : ∀ h, (∃ k, s.ihe h = some k) ↔ (s.flag h = some true ∨ (s.flag (opposite h) = some true ∧ U h ∧ E.numCut ≤ h))
  ends : ∀ h k, s.ihe h = some k → m10.nE ≤ edgeOf k ∧ edgeOf k < s.m1.nE ∧ proj (src s.m1 k) = src E.m0 h ∧ proj (s.m1.target k) = E.m0.target h
  opp : ∀ h k k', s.ihe h = some k → s.ihe (opposite h) = some k' → E.numCut ≤ h → k' = opposite k
  closed : ∀ h k n k', s.ihe h = some k → E.m0.next h = some n → s.ihe n = some k' → E.base ≤ E.m0.target h → s.m1.target k = src s.m1 k'
  sep : ∀ h h' v, U h → U h' → E.base ≤ E.m0.target h → At E s h v → At E s h' v → Beside E h h'
  one : ∀ h k h' k', s.ihe h = some k → s.ihe h' = some k' → edgeOf k = edgeOf k' → h = h' ∨ (h' = opposite h ∧ E.numCut ≤ h)
  all : ∀ k, m10.nE ≤ edgeOf k → edgeOf k < s.m1.nE → ∃ h k', s.ihe h = some k' ∧ edgeOf k' = edgeOf k

variable {m10 : Mesh P} {proj : Nat → Nat} {pend : Option Nat} {s : St P}

theorem Beside.symm {h h' : Nat} (b : Beside E h h') : Beside E h' h := by
  rcases b with rfl | b | b
  · exact Or.inl rfl
  · exact Or.inr (Or.inr b)
  · exact Or.inr (Or.inl b)

theorem Scene.ge (S : Scene E U) (h : Nat) : E.numCut ≤ opposite h ↔ E.numCut ≤ h := by
  have := S.even
  unfold opposite; split <;> omega

/-- A vertex that is a copy of an original vertex is that vertex. -/
theorem Inv.orig (I : Inv d E U m10 proj pend s) {v w : Nat} (hv : v < s.m1.nV) (hp : proj v = w) (hw : w < E.base) : v = w := by
  by_cases h : v < E.m0.nV
  · rw [← hp, I.proj0 v h]
  · have := (I.point v (by omega) hv).1
    omega

/-- A version of a point is a copy of it. -/
theorem Inv.at_proj (I : Inv d E U m10 proj pend s) (S : Scene E U) {g v : Nat} (hg : U g) (ha : At E s g v) : proj v = E.m0.target g ∧ v < s.m1.nV := by
  rcases ha with ⟨k, hk, rfl⟩ | ⟨n, k, hn, hk, rfl⟩
  · obtain ⟨-, e2, -, e4⟩ := I.ends _ _ hk
    exact ⟨e4, (I.plain.ends e2).2.2.2.1⟩
  · obtain ⟨-, e2, e3, -⟩ := I.ends _ _ hk
    obtain ⟨n', h1, -, h3, -⟩ := S.next g hg
    rw [hn] at h1
    obtain rfl := Option.some.inj h1
    exact ⟨by rw [e3, h3], (I.plain.ends e2).2.2.2.2⟩

/-- A point has a version only if a halfedge that ends there has been visited. -/
theorem Inv.at_flag (I : Inv d E U m10 proj pend s) (S : Scene E U) {g v : Nat} (hg : U g) (hb : E.base ≤ E.m0.target g) (ha : At E s g v) :
    ∃ g', s.flag g' = some true ∧ E.m0.target g' = E.m0.target g := by
  rcases ha with ⟨k, hk, -⟩ | ⟨n, k, hn, hk, -⟩
  · rcases (I.dom g).1 ⟨k, hk⟩ with h | ⟨h1, h2, h3⟩
    · exact ⟨g, h, rfl⟩
    · have hU := (I.fU _ h1).1
      obtain ⟨p, p1, p2, p3⟩ := S.prev _ hU
      obtain ⟨n, n1, -, n3, -⟩ := S.next _ p2
      rw [p3] at n1
      obtain rfl := Option.some.inj n1
      have f := (S.flip g hg).1
      exact ⟨p, I.back _ _ h1 (by rw [f]; exact hb) p1, by rw [← n3, f]⟩
  · obtain ⟨n', n1, n2, n3, n4⟩ := S.next g hg
    rw [hn] at n1
    obtain rfl := Option.some.inj n1
    rcases (I.dom n).1 ⟨k, hk⟩ with h | ⟨h1, h2, h3⟩
    · exact ⟨g, I.back _ _ h (by rw [n3]; exact hb) n4, rfl⟩
    · exact ⟨opposite n, h1, by rw [(S.flip n n2).2, n3]⟩

/-- A cut halfedge has a version only if it has been visited. -/
theorem Inv.cut_dom (I : Inv d E U m10 proj pend s) {h : Nat} (hc : h < E.numCut) : (∃ k, s.ihe h = some k) ↔ s.flag h = some true := by
  rw [I.dom]
  constructor
  · rintro (h1 | ⟨-, -, h1⟩)
    · exact h1
    · omega
  · exact Or.inl

theorem ihe_none {h : Nat} : s.ihe h = none ↔ ¬ ∃ k, s.ihe h = some k := by
  cases s.ihe h <;> simp

theorem across_spec (S : Scene E U) (key : ∀ h, U h → isInter E h → ∃ b, s.flag h = some b) {v : Nat} (hv : E.base ≤ v) : ∀ L : List Nat, (∀ g ∈ L, g ∈ E.incoming v) →
    ∃ l, across E s.flag L = some l ∧ (∀ g ∈ l, U g ∧ E.m0.target g = v ∧ s.flag g = some true) ∧ ∀ g ∈ L, U g → s.flag g = some true → g ∈ l := by
  intro L
  induction L with
  | nil => intro _; exact ⟨[], rfl, by simp, by simp⟩
  | cons g L ih =>
    intro hL
    obtain ⟨l, h1, h2, h3⟩ := ih (fun x hx => hL x (List.mem_cons_of_mem _ hx))
    obtain ⟨t, b, hs, hu⟩ := S.incoming v hv g (hL g List.mem_cons_self)
    unfold across
    rw [hs, Option.bind_some]
    by_cases hc : (b || (E.T g).isEmpty) = true
    · rw [if_pos hc]
      refine ⟨l, h1, h2, fun x hx hxU hf => ?_⟩
      rcases List.mem_cons.1 hx with rfl | hx
      · exfalso
        have := (S.listed x hxU (by rw [t]; exact hv)).2
        rw [hs] at this
        obtain rfl := Option.some.inj this
        have := S.used x hxU
        simp at hc
        exact this hc
      · exact h3 x hx hxU hf
    · rw [if_neg hc]
      simp only [Bool.or_eq_true, not_or, Bool.not_eq_true] at hc
      have hT : E.T g ≠ [] := by intro h; rw [h] at hc; simp at hc
      have hU := hu hc.1 hT
      obtain ⟨f, hf⟩ := key g hU (Or.inr (by rw [t]; exact hv))
      rw [hf, Option.bind_some, h1, Option.map_some]
      refine ⟨_, rfl, ?_, ?_⟩
      · intro x hx
        split at hx
        · rename_i hft
          rcases List.mem_cons.1 hx with rfl | hx
          · exact ⟨hU, t, by rw [hf, hft]⟩
          · exact h2 x hx
        · exact h2 x hx
      · intro x hx hxU hxf
        rcases List.mem_cons.1 hx with rfl | hx
        · rw [hf] at hxf
          rw [if_pos (Option.some.inj hxf)]; exact List.mem_cons_self
        · have := h3 x hx hxU hxf
          split
          · exact List.mem_cons_of_mem _ this
          · exact this

/-- The invariant does not depend on the queue. -/
theorem Inv.queue (I : Inv d E U m10 proj pend s) (q : List Nat) : Inv d E U m10 proj pend { s with queue := q } := by
  cases I; constructor <;> assumption

/-- A copy of a point is added. -/
theorem Inv.addVertex (I : Inv d E U m10 proj pend s) (S : Scene E U) {v : Nat} (hv : E.base ≤ v) (hn : v < E.m0.nV) :
    Inv d E U m10 (fun x => if x = s.m1.nV then v else proj x) pend { s with m1 := (s.m1.addVertex (E.m0.pos v)).1 } ∧ (s.m1.addVertex (E.m0.pos v)).2 = s.m1.nV ∧
      (s.m1.addVertex (E.m0.pos v)).1.nV = s.m1.nV + 1 ∧ ∀ k, (s.m1.addVertex (E.m0.pos v)).1.target k = s.m1.target k ∧ src (s.m1.addVertex (E.m0.pos v)).1 k = src s.m1 k := by
  obtain ⟨a1, a2, a3, a4, a5, a6, a7⟩ := I.plain.addVertex (E.m0.pos v)
  refine ⟨?_, a1, a3, a7⟩
  have hat : ∀ h w, At E { s with m1 := (s.m1.addVertex (E.m0.pos v)).1 } h w ↔ At E s h w := by
    intro h w
    unfold At
    constructor
    · rintro (⟨k, h1, h2⟩ | ⟨n, k, h1, h2, h3⟩)
      · exact Or.inl ⟨k, h1, by rw [← (a7 k).1]; exact h2⟩
      · exact Or.inr ⟨n, k, h1, h2, by rw [← (a7 k).2]; exact h3⟩
    · rintro (⟨k, h1, h2⟩ | ⟨n, k, h1, h2, h3⟩)
      · exact Or.inl ⟨k, h1, by rw [(a7 k).1]; exact h2⟩
      · exact Or.inr ⟨n, k, h1, h2, by rw [(a7 k).2]; exact h3⟩
  have nV := I.nV
  refine ⟨a2, by rw [a3]; omega, by rw [a6]; exact I.nE, fun k hk => by rw [(a7 k).1, (a7 k).2]; exact I.old k hk, ?_, ?_, ?_, I.key, I.fU, I.back, I.fwd, I.dom, ?_, I.opp, ?_, ?_, I.one, ?_⟩
  · intro x hx; rw [if_neg (by omega)]; exact I.proj0 x hx
  · intro x h1 h2
    dsimp only at h2
    rw [a3] at h2
    split
    · exact ⟨hv, hn⟩
    · exact I.point x h1 (by omega)
  · intro x hx
    dsimp only at hx ⊢
    rw [a3] at hx
    split
    · rename_i e; subst e; exact a4
    · rw [a5 x (by omega)]; exact I.pos x (by omega)
  · intro h k hk
    obtain ⟨e1, e2, e3, e4⟩ := I.ends h k hk
    have := I.plain.ends e2
    dsimp only
    rw [a6, (a7 k).1, (a7 k).2, if_neg (by omega), if_neg (by omega)]
    exact ⟨e1, e2, e3, e4⟩
  · intro h k n k' h1 h2 h3 h4
    dsimp only
    rw [(a7 k).1, (a7 k').2]; exact I.closed h k n k' h1 h2 h3 h4
  · intro h h' w h1 h2 h3 h4 h5
    exact I.sep h h' w h1 h2 h3 ((hat _ _).1 h4) ((hat _ _).1 h5)
  · intro k h1 h2
    dsimp only at h2
    rw [a6] at h2; exact I.all k h1 h2

/-- The flag of a halfedge that has a version already is set. -/
theorem Inv.skip (I : Inv d E U m10 proj pend s) (S : Scene E U) {h : Nat} (hU : U h) (hi : isInter E h) (hD : ∃ k, s.ihe h = some k)
    (hp : E.base ≤ src E.m0 h → ∃ p, E.m0.prev h = some p ∧ s.flag p = some true) (hpend : pend = none ∨ ∃ p, pend = some p ∧ E.m0.next p = some h) :
    Inv d E U m10 proj (some h) { s with flag := fun x => if x = h then some true else s.flag x } := by
  have mono : ∀ x, s.flag x = some true → (if x = h then some true else s.flag x) = some true := fun x hx => by split; rfl; exact hx
  have cases' : ∀ x, (if x = h then some true else s.flag x) = some true → x = h ∨ s.flag x = some true := by
    intro x hx
    split at hx
    · left; assumption
    · right; exact hx
  refine ⟨I.plain, I.nV, I.nE, I.old, I.proj0, I.point, I.pos, ?_, ?_, ?_, ?_, ?_, I.ends, I.opp, I.closed, I.sep, I.one, I.all⟩
  · intro x h1 h2
    dsimp only
    split
    · exact ⟨_, rfl⟩
    · exact I.key x h1 h2
  · intro x hx
    rcases cases' x hx with rfl | hx
    · exact ⟨hU, hi⟩
    · exact I.fU x hx
  · intro x p hx h1 h2
    rcases cases' x hx with rfl | hx
    · obtain ⟨p', p1, p2⟩ := hp h1
      rw [h2] at p1
      obtain rfl := Option.some.inj p1
      exact mono _ p2
    · exact mono _ (I.back x p hx h1 h2)
  · intro x n hx h2 h1
    rcases cases' x hx with rfl | hx
    · exact Or.inl rfl
    · rcases I.fwd x n hx h2 h1 with h3 | h3
      · right
        rcases hpend with h4 | ⟨p, h4, h5⟩
        · rw [h4] at h3; cases h3
        · rw [h3] at h4
          obtain rfl := Option.some.inj h4
          rw [h2] at h5
          dsimp only
          rw [if_pos (Option.some.inj h5)]
      · exact Or.inr (mono _ h3)
  · intro x
    dsimp only
    rw [I.dom]
    constructor
    · rintro (h1 | ⟨h1, h2⟩)
      · exact Or.inl (mono _ h1)
      · exact Or.inr ⟨mono _ h1, h2⟩
    · rintro (h1 | ⟨h1, h2, h3⟩)
      · rcases cases' x h1 with rfl | h1
        · exact (I.dom x).1 hD
        · exact Or.inl h1
      · rcases cases' _ h1 with h1 | h1
        · rcases (I.dom h).1 hD with h4 | ⟨h4, -⟩
          · exact Or.inr ⟨by rw [h1]; exact h4, h2, h3⟩
          · left; rw [← h1, opposite_opposite] at h4; exact h4
        · exact Or.inr ⟨h1, h2, h3⟩

/-- The walk has come to an end. -/
theorem Inv.settle {h : Nat} (I : Inv d E U m10 proj (some h) s) (ht : ∀ n, E.m0.next h = some n → isInter E n → s.flag n = some true) : Inv d E U m10 proj none s := by
  refine ⟨I.plain, I.nV, I.nE, I.old, I.proj0, I.point, I.pos, I.key, I.fU, I.back, ?_, I.dom, I.ends, I.opp, I.closed, I.sep, I.one, I.all⟩
  intro x n hx h1 h2
  rcases I.fwd x n hx h1 h2 with h3 | h3
  · obtain rfl := Option.some.inj h3
    exact Or.inr (ht n h1 h2)
  · exact Or.inr h3

end Mcut.Split
