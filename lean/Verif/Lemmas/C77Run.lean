import Verif.Lemmas.C77Walk
import Verif.Lemmas.C74Simple
import Verif.Lemmas.C60

/-! Lemmas for C77: all halfedges get their versions. -/
namespace Mcut.Split
open Mcut.Hmesh Mcut.Extract
open Mcut.Trace (src src_of Cyclic cyclic_closed)
variable {P : Type} {d : P} {E : Env P} {U : Nat → Prop} {m10 : Mesh P} {order : List Nat} {proj : Nat → Nat} {s : St P}

/-- The polygons of the source mesh. -/
structure Polys (E : Env P) (U : Nat → Prop) : Prop where
  mem : ∀ h, U h → ∃ i p, i < E.smCount ∧ E.polygons[i]? = some p ∧ h ∈ p
  cyc : ∀ i p, i < E.smCount → E.polygons[i]? = some p → Cyclic (fun a b => E.m0.next a = some b) p
  uses : ∀ i p, i < E.smCount → E.polygons[i]? = some p → ∀ h ∈ p, U h ∧ (E.T h).head? = some i

/-- A walk can begin in this polygon, wherever it has intersection points. -/
def Startable (E : Env P) (p : List Nat) : Prop := (∃ h ∈ p, ¬ isInter E h) ∨ p.countP (fun x => decide (E.m0.target x < E.base)) = 1

theorem cyclic_next {R : Nat → Option Nat} {p : List Nat} (hc : Cyclic (fun a b => R a = some b) p) {a : Nat} (ha : a ∈ p) {b : Nat} (hb : R a = some b) : b ∈ p := by
  unfold Cyclic at hc
  rw [List.isChain_iff_getElem] at hc
  obtain ⟨k, hk, hka⟩ := List.getElem_of_mem ha
  have hlen : (p ++ p.take 1).length = p.length + 1 := by simp; omega
  have hk1 := hc k (by omega)
  rw [List.getElem_append_left hk, hka, hb] at hk1
  rw [Option.some.inj hk1]
  rcases List.mem_append.1 (List.getElem_mem (by omega : k + 1 < (p ++ p.take 1).length)) with h' | h'
  · exact h'
  · exact List.mem_of_mem_take h'

theorem all_flagged (S : Scene E U) (K : Keys E U order) (L : Polys E U) (I : Inv d E U m10 proj none s) (hD : Dom order s.flag) (hN : NoStart E order s.flag)
    (hS : ∀ i p, i < E.smCount → E.polygons[i]? = some p → Startable E p) {h : Nat} (hU : U h) (hi : isInter E h) : s.flag h = some true := by
  obtain ⟨i, p, h1, h2, h3⟩ := L.mem h hU
  have hc := L.cyc i p h1 h2
  -- the successor of a corner where a walk may begin
  have begun : ∀ a b, a ∈ p → E.m0.next a = some b → E.m0.target a < E.base → isInter E b → (src E.m0 a < E.base ∨ p.countP (fun x => decide (E.m0.target x < E.base)) = 1) → s.flag b = some true := by
    intro a b ha hab hta hib hor
    obtain ⟨b', b1, b2, b3, b4⟩ := S.next a (L.uses i p h1 h2 a ha).1
    rw [hab] at b1
    obtain rfl := Option.some.inj b1
    obtain ⟨j, q, j1, j2, j3⟩ := L.mem b b2
    have hbt : E.base ≤ E.m0.target b := by
      rcases hib with h4 | h4
      · omega
      · exact h4
    have hbm := K.all b b2 hib
    obtain ⟨v, v1, v2⟩ := mayStart_spec S K hD hbm
    rw [hN b hbm] at v1
    obtain rfl := Option.some.inj v1
    obtain ⟨c, hcc⟩ := (hD b).2 hbm
    cases c with
    | true => exact hcc
    | false =>
      exfalso
      -- the polygon of `b` is the polygon of `a`
      have hbp : b ∈ p := cyclic_next hc ha hab
      have : false = true := v2.2 ⟨⟨b2, by omega, hbt, hcc⟩, a, b4, by
        rcases hor with h5 | h5
        · exact Or.inl h5
        · exact Or.inr ⟨i, p, (L.uses i p h1 h2 b hbp).2, h2, h5⟩⟩
      cases this
  have step : ∀ a b, a ∈ p → b ∈ p → (¬ isInter E a ∨ s.flag a = some true) → E.m0.next a = some b → (¬ isInter E b ∨ s.flag b = some true) := by
    intro a b ha _ hA hab
    by_cases hib : isInter E b
    · right
      rcases hA with hA | hA
      · unfold isInter at hA
        rw [not_or] at hA
        exact begun a b ha hab (by omega) hib (Or.inl (by omega))
      · rcases I.fwd a b hA hab hib with h4 | h4
        · cases h4
        · exact h4
    · exact Or.inl hib
  have first : ∃ x ∈ p, ¬ isInter E x ∨ s.flag x = some true := by
    rcases hS i p h1 h2 with ⟨x, hx, hxi⟩ | h4
    · exact ⟨x, hx, Or.inl hxi⟩
    · have hpos : 0 < p.countP (fun x => decide (E.m0.target x < E.base)) := by omega
      obtain ⟨a, ha, hat⟩ := List.countP_pos_iff.1 hpos
      simp only [decide_eq_true_eq] at hat
      obtain ⟨b, b1, b2, -⟩ := S.next a (L.uses i p h1 h2 a ha).1
      by_cases hib : isInter E b
      · have hb := begun a b ha b1 hat hib (Or.inr h4)
        obtain ⟨j, q, j1, j2, j3⟩ := L.mem b b2
        have hbp : b ∈ p := cyclic_next hc ha b1
        exact ⟨b, hbp, Or.inr hb⟩
      · exact ⟨b, cyclic_next hc ha b1, Or.inl hib⟩
  obtain ⟨x, hx, hA⟩ := first
  rcases cyclic_closed (A := fun x => ¬ isInter E x ∨ s.flag x = some true) hc hx hA step h h3 with h4 | h4
  · exact absurd hi h4
  · exact h4

/-- "m1" and the versions of the halfedges of the source mesh. -/
structure Versions (d : P) (E : Env P) (U : Nat → Prop) (m0 m1 : Mesh P) (ver proj : Nat → Nat) : Prop where
  plain : Plain d m1
  nV : m0.nV ≤ m1.nV
  proj0 : ∀ v, v < m0.nV → proj v = v
  point : ∀ v, m0.nV ≤ v → v < m1.nV → E.base ≤ proj v ∧ proj v < m0.nV
  pos : ∀ v, v < m1.nV → m1.pos v = m0.pos (proj v)
  live : ∀ h, U h → edgeOf (ver h) < m1.nE
  ends : ∀ h, U h → proj (src m1 (ver h)) = src m0 h ∧ proj (m1.target (ver h)) = m0.target h
  closed : ∀ h n, U h → E.m0.next h = some n → m1.target (ver h) = src m1 (ver n)
  opp : ∀ h, U h → U (opposite h) → E.numCut ≤ h → ver (opposite h) = opposite (ver h)
  sep : ∀ h h', U h → U h' → E.base ≤ m0.target h → m1.target (ver h) = m1.target (ver h') → Beside E h h'
  one : ∀ h h', U h → U h' → edgeOf (ver h) = edgeOf (ver h') → h = h' ∨ (h' = opposite h ∧ E.numCut ≤ h)
  edges : ∀ k, edgeOf k < m1.nE → (∃ h, U h ∧ edgeOf (ver h) = edgeOf k) ∨ ∃ h, edgeOf h < m0.nE ∧ src m1 k = src m0 h ∧ m1.target k = m0.target h ∧ src m0 h < E.base ∧ m0.target h < E.base

theorem copyVertices_copied {m0 : Mesh P} (p0 : Plain d m0) : Copied d m0 (copyVertices d m0).1 ∧ (copyVertices d m0).1.nE = 0 := by
  have I : Intact d m0 := ⟨p0.reach, p0.vRem, p0.fRem⟩
  have hn : m0.numVertices = m0.nV := by unfold Mesh.numVertices; rw [p0.vRem]; rfl
  have B := CutEdges.copyVertices_bare I
  rw [hn] at B
  refine ⟨⟨plain_of_bare B, B.nV, ?_⟩, B.nE⟩
  have key : ∀ n, ∃ m l, (List.range n).foldl (fun (s : Mesh P × List Nat) i => ((s.1.addVertex (m0.pos i)).1, s.2 ++ [i])) (Mesh.empty d, []) = (m, l) ∧ CutEdges.Bare d m n ∧ ∀ v, v < n → m.pos v = m0.pos v := by
    intro n
    induction n with
    | zero => exact ⟨_, _, rfl, ⟨.empty, rfl, rfl, rfl, rfl, rfl, rfl⟩, fun v hv => absurd hv (by omega)⟩
    | succ n ih =>
      obtain ⟨m, l, h1, h2, h3⟩ := ih
      rw [List.range_succ, List.foldl_append, h1]
      obtain ⟨b1, b2⟩ := h2.add (m0.pos n)
      refine ⟨_, _, rfl, b1, fun v hv => ?_⟩
      rw [b2]
      by_cases hvn : v = n
      · subst hvn; simp [upd]
      · rw [show upd m.pos n (m0.pos n) v = m.pos v from by simp [upd, hvn]]
        exact h3 v (by omega)
  obtain ⟨m, l, h1, h2, h3⟩ := key m0.nV
  unfold copyVertices
  rw [p0.vRem, enum_nil, h1]
  exact h3

theorem copyEdges_spec {m0 : Mesh P} {base : Nat} (p0 : Plain d m0) (hb : base ≤ m0.nV) :
    Edges d m0 base (List.range m0.nE) (copyEdges m0 base (copyVertices d m0).1).1 (copyEdges m0 base (copyVertices d m0).1).2 := by
  obtain ⟨c1, c2⟩ := copyVertices_copied p0
  unfold copyEdges
  rw [p0.eRem, enum_nil]
  have := copyEdges_fold p0 hb (List.range m0.nE) [] ((copyVertices d m0).1, fun _ => none) ⟨c1, by simp, by simp, by simp, by rw [c2]; simp⟩ (by rw [List.nil_append]; exact List.nodup_range)
    (fun e he => List.mem_range.1 he)
  rw [List.nil_append] at this
  exact this

/-- The links do not change what the stage copies. -/
structure Same (m0 m : Mesh P) : Prop where
  nV : m.nV = m0.nV
  pos : m.pos = m0.pos
  target : ∀ h, m.target h = m0.target h
  src : ∀ h, src m h = src m0 h

theorem mapM_map {f : Nat → Option Nat} {g : Nat → Nat} : ∀ {p : List Nat}, (∀ h ∈ p, f h = some (g h)) → p.mapM f = some (p.map g) := by
  intro p
  induction p with
  | nil => intro _; rfl
  | cons a p ih =>
    intro h
    rw [List.mapM_cons, h a List.mem_cons_self, ih (fun x hx => h x (List.mem_cons_of_mem _ hx))]
    rfl

theorem mapM_map' {f : List Nat → Option (List Nat)} {g : List Nat → List Nat} : ∀ {p : List (List Nat)}, (∀ h ∈ p, f h = some (g h)) → p.mapM f = some (p.map g) := by
  intro p
  induction p with
  | nil => intro _; rfl
  | cons a p ih =>
    intro h
    rw [List.mapM_cons, h a List.mem_cons_self, ih (fun x hx => h x (List.mem_cons_of_mem _ hx))]
    rfl

/-- What the tables of the stage have: `he` names the copies of the halfedges between original vertices, the others are in `m0_to_m1_ihe`. -/
structure HalfTables (d : P) (E : Env P) (U : Nat → Prop) (m0 : Mesh P) (order : List Nat) (m1 : Mesh P) (ver : Nat → Nat) (he : Nat → Option Nat) : Prop where
  ihe : ∃ s, walks E order (begin d E.base m0 order) = some s ∧ s.m1 = m1 ∧ ∀ h, U h → isInter E h → s.ihe h = some (ver h)
  kinds : ∀ k, edgeOf k < m1.nE → (∃ h, U h ∧ isInter E h ∧ edgeOf (ver h) = edgeOf k) ∨
    ∃ h, he h = some k ∧ edgeOf h < m0.nE ∧ src m1 k = src m0 h ∧ m1.target k = m0.target h ∧ src m0 h < E.base ∧ m0.target h < E.base

theorem split_run' {m0 : Mesh P} (S : Scene E U) (K : Keys E U order) (L : Polys E U) (hS : ∀ i p, i < E.smCount → E.polygons[i]? = some p → Startable E p) (p0 : Plain d m0) (Q : Same m0 E.m0)
    (live : ∀ h, U h → edgeOf h < m0.nE) (some' : ∃ h, U h ∧ isInter E h) :
    ∃ m1 ver proj he, split d E m0 order = some (m1, (E.polygons.take E.smCount).map (fun p => p.map ver)) ∧ Versions d E U m0 m1 ver proj ∧ HalfTables d E U m0 order m1 ver he := by
  have hb : E.base ≤ m0.nV := by rw [← Q.nV]; exact S.base
  have C := copyEdges_spec p0 hb
  -- the start
  have hD0 : Dom order (begin d E.base m0 order).flag := by
    intro x
    unfold begin
    dsimp only
    constructor
    · rintro ⟨b, hx⟩
      by_contra hn
      rw [if_neg hn] at hx; cases hx
    · intro hx; exact ⟨false, if_pos hx⟩
  have f0 : ∀ x, (begin d E.base m0 order).flag x ≠ some true := by
    intro x hx
    unfold begin at hx
    dsimp only at hx
    split at hx <;> simp at hx
  have i0 : ∀ x, (begin d E.base m0 order).ihe x = none := fun _ => rfl
  have na : ∀ x w, ¬ At E (begin d E.base m0 order) x w := by
    rintro x w (⟨k, hk, -⟩ | ⟨n, k, -, hk, -⟩) <;> rw [i0] at hk <;> cases hk
  have I0 : Inv d E U (copyEdges m0 E.base (copyVertices d m0).1).1 id none (begin d E.base m0 order) := by
    refine ⟨C.copied.plain, ?_, Nat.le_refl _, fun _ _ => ⟨rfl, rfl⟩, fun _ _ => rfl, ?_, ?_, ?_, ?_, ?_, ?_, ?_, ?_, ?_, ?_, ?_, ?_, ?_⟩
    · rw [Q.nV]; show m0.nV ≤ (copyEdges m0 E.base (copyVertices d m0).1).1.nV; rw [C.copied.nV]
    · intro v h1 h2
      have : v < (copyEdges m0 E.base (copyVertices d m0).1).1.nV := h2
      rw [C.copied.nV] at this
      rw [Q.nV] at h1
      omega
    · intro v hv
      have : v < (copyEdges m0 E.base (copyVertices d m0).1).1.nV := hv
      rw [C.copied.nV] at this
      rw [Q.pos]; exact C.copied.pos v this
    · intro h h1 h2; exact (hD0 h).2 (K.all h h1 h2)
    · intro h hh; exact absurd hh (f0 h)
    · intro h _ hh; exact absurd hh (f0 h)
    · intro h _ hh; exact absurd hh (f0 h)
    · intro h
      constructor
      · rintro ⟨k, hk⟩; rw [i0] at hk; cases hk
      · rintro (h1 | ⟨h1, -⟩) <;> exact absurd h1 (f0 _)
    · intro h k hk; rw [i0] at hk; cases hk
    · intro h k _ hk; rw [i0] at hk; cases hk
    · intro h k _ _ hk; rw [i0] at hk; cases hk
    · intro h h' v _ _ _ hA; exact absurd hA (na _ _)
    · intro h k _ _ hk; rw [i0] at hk; cases hk
    · intro k h1 h2
      have : edgeOf k < (copyEdges m0 E.base (copyVertices d m0).1).1.nE := h2
      omega
  have hN0 : ¬ NoStart E order (begin d E.base m0 order).flag := by
    intro hN
    obtain ⟨h, h1, h2⟩ := some'
    exact f0 h (all_flagged S K L I0 hD0 hN hS h1 h2)
  obtain ⟨s, proj, w1, I, hD, hN⟩ := walks_spec S K I0 hD0 rfl hN0
  -- the versions
  generalize hhe : (copyEdges m0 E.base (copyVertices d m0).1).2 = he at *
  generalize hm10 : (copyEdges m0 E.base (copyVertices d m0).1).1 = m10 at *
  have inter : ∀ h, U h → isInter E h → ∃ k, s.ihe h = some k := fun h hU hi => (I.dom h).2 (Or.inl (all_flagged S K L I hD hN hS hU hi))
  have orig : ∀ h, U h → ¬ isInter E h → ∃ k, he h = some k := by
    intro h hU hi
    unfold isInter at hi
    rw [not_or, Q.src, Q.target] at hi
    exact C.got h (List.mem_range.2 (live h hU)) (by omega) (by omega)
  let ver : Nat → Nat := fun h => ((if isInter E h then s.ihe h else he h)).getD 0
  have vi : ∀ {h k}, isInter E h → s.ihe h = some k → ver h = k := by intro h k hi hk; simp only [ver, if_pos hi, hk, Option.getD_some]
  have vo : ∀ {h k}, ¬ isInter E h → he h = some k → ver h = k := by intro h k hi hk; simp only [ver, if_neg hi, hk, Option.getD_some]
  have val : ∀ h, U h → (isInter E h ∧ s.ihe h = some (ver h)) ∨ (¬ isInter E h ∧ he h = some (ver h)) := by
    intro h hU
    by_cases hi : isInter E h
    · obtain ⟨k, hk⟩ := inter h hU hi
      exact Or.inl ⟨hi, by rw [vi hi hk]; exact hk⟩
    · obtain ⟨k, hk⟩ := orig h hU hi
      exact Or.inr ⟨hi, by rw [vo hi hk]; exact hk⟩
  have nE := I.nE
  have heEnds : ∀ {h k}, he h = some k → edgeOf k < s.m1.nE ∧ src s.m1 k = src m0 h ∧ s.m1.target k = m0.target h := by
    intro h k hk
    obtain ⟨c1, c2, c3, -⟩ := C.ends h k hk
    obtain ⟨o1, o2⟩ := I.old k c1
    exact ⟨by omega, by rw [o2, c2], by rw [o1, c3]⟩
  have hnv : m0.nV ≤ s.m1.nV := by rw [← Q.nV]; exact I.nV
  have p0' : ∀ v, v < m0.nV → proj v = v := fun v hv => I.proj0 v (by rw [Q.nV]; exact hv)
  have ends : ∀ h, U h → edgeOf (ver h) < s.m1.nE ∧ proj (src s.m1 (ver h)) = src m0 h ∧ proj (s.m1.target (ver h)) = m0.target h := by
    intro h hU
    rcases val h hU with ⟨-, hk⟩ | ⟨hi, hk⟩
    · obtain ⟨e1, e2, e3, e4⟩ := I.ends h _ hk
      exact ⟨e2, by rw [e3, Q.src], by rw [e4, Q.target]⟩
    · obtain ⟨e1, e2, e3⟩ := heEnds hk
      have := S.bound h hU
      rw [Q.src, Q.target, Q.nV] at this
      exact ⟨e1, by rw [e2]; exact p0' _ this.1, by rw [e3]; exact p0' _ this.2⟩
  have low : ∀ {h k}, he h = some k → edgeOf k < m10.nE := fun hk => (C.ends _ _ hk).1
  have high : ∀ {h k}, s.ihe h = some k → m10.nE ≤ edgeOf k := fun hk => (I.ends _ _ hk).1
  have kinds : ∀ k, edgeOf k < s.m1.nE → (∃ h, U h ∧ isInter E h ∧ edgeOf (ver h) = edgeOf k) ∨
      ∃ h, he h = some k ∧ edgeOf h < m0.nE ∧ src s.m1 k = src m0 h ∧ s.m1.target k = m0.target h ∧ src m0 h < E.base ∧ m0.target h < E.base := by
    intro k hk
    by_cases hk' : edgeOf k < m10.nE
    · right
      obtain ⟨h, hh⟩ := C.all k hk'
      obtain ⟨e1, e2, e3⟩ := heEnds hh
      obtain ⟨-, -, -, -, c5, c6, c7⟩ := C.ends h k hh
      exact ⟨h, hh, List.mem_range.1 c5, e2, e3, c6, c7⟩
    · left
      obtain ⟨h, k', h1, h2⟩ := I.all k (by omega) hk
      have hU : U h ∧ isInter E h := by
        rcases (I.dom h).1 ⟨k', h1⟩ with h3 | ⟨h3, h4, -⟩
        · exact I.fU h h3
        · refine ⟨h4, ?_⟩
          have := (I.fU _ h3).2
          have fl := S.flip h h4
          unfold isInter at this ⊢
          rw [fl.1, fl.2] at this
          tauto
      refine ⟨h, hU.1, hU.2, ?_⟩
      rw [vi hU.2 h1, h2]
  refine ⟨s.m1, ver, proj, he, ?_, ⟨I.plain, hnv, p0', ?_, ?_, fun h hU => (ends h hU).1, fun h hU => (ends h hU).2, ?_, ?_, ?_, ?_, ?_⟩, ⟨s, w1, rfl, fun h hU hi => ?_⟩, kinds⟩
  · unfold split
    rw [w1, Option.bind_some, hhe]
    have : retrace E he s.ihe (E.polygons.take E.smCount) = some ((E.polygons.take E.smCount).map (fun p => p.map ver)) := by
      unfold retrace
      refine mapM_map' (fun p hp => mapM_map (fun h hh => ?_))
      obtain ⟨i, hi, rfl⟩ := List.getElem_of_mem hp
      rw [List.length_take] at hi
      rw [List.getElem_take] at hh
      have hU := (L.uses i _ (by omega) (List.getElem?_eq_getElem (by omega)) h hh).1
      rcases val h hU with ⟨h1, h2⟩ | ⟨h1, h2⟩
      · rw [if_pos h1, h2]
      · rw [if_neg h1, h2]
    rw [this]; rfl
  · intro v h1 h2
    have := I.point v (by rw [Q.nV]; exact h1) h2
    rw [Q.nV] at this; exact this
  · intro v hv; rw [I.pos v hv, Q.pos]
  · intro h n hU hn
    obtain ⟨n', n1, n2, n3, n4⟩ := S.next h hU
    rw [hn] at n1
    obtain rfl := Option.some.inj n1
    by_cases ht : E.base ≤ E.m0.target h
    · rcases val h hU with ⟨h1, h2⟩ | ⟨h1, h2⟩
      · rcases val n n2 with ⟨g1, g2⟩ | ⟨g1, g2⟩
        · exact I.closed h _ n _ h2 hn g2 ht
        · exact absurd (Or.inl (by rw [n3]; exact ht)) g1
      · exact absurd (Or.inr ht) h1
    · obtain ⟨e1, e2, e3⟩ := ends h hU
      obtain ⟨f1, f2, f3⟩ := ends n n2
      have b1 := (I.plain.ends e1).2.2.2.1
      have b2 := (I.plain.ends f1).2.2.2.2
      rw [I.orig b1 e3 (by rw [← Q.target]; omega), I.orig b2 f2 (by rw [← Q.src, n3]; omega), ← Q.target, ← Q.src, n3]
  · intro h hU hO hc
    have fl := S.flip h hU
    rcases val h hU with ⟨h1, h2⟩ | ⟨h1, h2⟩
    · rcases val _ hO with ⟨g1, g2⟩ | ⟨g1, g2⟩
      · exact I.opp h _ _ h2 g2 hc
      · exfalso
        apply g1
        unfold isInter
        rw [fl.1, fl.2]
        rcases h1 with h1 | h1
        · exact Or.inr h1
        · exact Or.inl h1
    · have h4 := (C.ends h _ h2).2.2.2.1
      refine vo ?_ h4
      unfold isInter at h1 ⊢
      rw [fl.1, fl.2]
      tauto
  · intro h h' hU hU' hb' htt
    have hi : isInter E h := Or.inr (by rw [Q.target]; exact hb')
    have hi' : isInter E h' := by
      right
      rw [Q.target, ← (ends h' hU').2.2, ← htt, (ends h hU).2.2]; exact hb'
    rcases val h hU with ⟨-, h2⟩ | ⟨h1, -⟩
    · rcases val h' hU' with ⟨-, g2⟩ | ⟨g1, -⟩
      · exact I.sep h h' _ hU hU' (by rw [Q.target]; exact hb') (Or.inl ⟨_, h2, rfl⟩) (Or.inl ⟨_, g2, htt.symm⟩)
      · exact absurd hi' g1
    · exact absurd hi h1
  · intro h h' hU hU' hkk
    rcases val h hU with ⟨h1, h2⟩ | ⟨h1, h2⟩ <;> rcases val h' hU' with ⟨g1, g2⟩ | ⟨g1, g2⟩
    · exact I.one h _ h' _ h2 g2 hkk
    · have := high h2; have := low g2; omega
    · have := low h2; have := high g2; omega
    · have he' := C.one h _ h' _ h2 g2 hkk
      have hnc : E.numCut ≤ h := by
        by_contra hc
        exact h1 (Or.inl (S.cut h hU (by omega)).1)
      have : h' = h ∨ h' = opposite h := by unfold opposite; unfold edgeOf at he'; split <;> omega
      rcases this with h3 | h3
      · exact Or.inl h3.symm
      · exact Or.inr ⟨h3, hnc⟩
  · intro k hk
    rcases kinds k hk with ⟨h, h1, -, h2⟩ | ⟨h, -, h2⟩
    · exact .inl ⟨h, h1, h2⟩
    · exact .inr ⟨h, h2⟩
  · rcases val h hU with ⟨-, h2⟩ | ⟨h1, -⟩
    · exact h2
    · exact absurd hi h1

theorem split_run {m0 : Mesh P} (S : Scene E U) (K : Keys E U order) (L : Polys E U) (hS : ∀ i p, i < E.smCount → E.polygons[i]? = some p → Startable E p) (p0 : Plain d m0) (Q : Same m0 E.m0)
    (live : ∀ h, U h → edgeOf h < m0.nE) (some' : ∃ h, U h ∧ isInter E h) :
    ∃ m1 ver proj, split d E m0 order = some (m1, (E.polygons.take E.smCount).map (fun p => p.map ver)) ∧ Versions d E U m0 m1 ver proj := by
  obtain ⟨m1, ver, proj, -, h1, h2, -⟩ := split_run' S K L hS p0 Q live some'
  exact ⟨m1, ver, proj, h1, h2⟩

end Mcut.Split
