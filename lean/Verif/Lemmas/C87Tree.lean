import Verif.Lemmas.C86Erase
import Mathlib.Combinatorics.SimpleGraph.Acyclic
import Mathlib.Combinatorics.SimpleGraph.DegreeSum

/-! # The edges that a spanning tree of triangles does not cross form a tree -/
namespace Mcut.Cdt
open Mcut.Geom
variable {K : Type} [Field K] [LinearOrder K] [IsStrictOrderedRing K]
variable {pos : Nat → V2 K} {N : Nat} {s : St}

/-- Two vertices with an edge between them. -/
def IsEdge (ts : List Tri) (u v : Nat) : Prop := ∃ x : Sd ts, (x.a = u ∧ x.b = v) ∨ (x.a = v ∧ x.b = u)

theorem IsEdge.symm {ts : List Tri} {u v : Nat} (h : IsEdge ts u v) : IsEdge ts v u := by
  obtain ⟨x, hx⟩ := h
  exact ⟨x, hx.symm⟩

/-- A side for each triangle, such that crossing these sides leads to the root. -/
structure Parents (ts : List Tri) (root : Fin ts.length) (p : Fin ts.length → Fin 3) (rank : Nat → Nat) : Prop where
  root_side : Sd.n ((root, p root) : Sd ts) = none
  up : ∀ k, k ≠ root → ∃ k', Sd.n ((k, p k) : Sd ts) = some k' ∧ rank k' < rank k

/-- An edge of the spanning tree. -/
def Crossed (ts : List Tri) (p : Fin ts.length → Fin 3) (u v : Nat) : Prop := ∃ k, (Sd.a ((k, p k) : Sd ts) = u ∧ Sd.b ((k, p k) : Sd ts) = v) ∨ (Sd.a ((k, p k) : Sd ts) = v ∧ Sd.b ((k, p k) : Sd ts) = u)

theorem Crossed.symm {ts : List Tri} {p : Fin ts.length → Fin 3} {u v : Nat} (h : Crossed ts p u v) : Crossed ts p v u := by
  obtain ⟨k, hk⟩ := h
  exact ⟨k, hk.symm⟩

theorem Sd.ne (T : Triangulation pos N s) (x : Sd s.tris) : x.a ≠ x.b := (ccw_ne (T.mutual.ccw_get x.get) x.2).1

theorem Sd.lt (T : Triangulation pos N s) (x : Sd s.tris) : x.a < N ∧ x.b < N :=
  ⟨(T.vertices _).2 ⟨x.tri, List.mem_of_getElem? x.get, x.2, rfl⟩, (T.vertices _).2 ⟨x.tri, List.mem_of_getElem? x.get, x.2 + 1, rfl⟩⟩

/-- The three sides of the super-triangle are there. -/
theorem Placed.rims (h : Placed pos N) (T : Triangulation pos N s) : ∀ r ∈ [(0, 1), (1, 2), (2, 0)], ∃ x : Sd s.tris, x.a = r.1 ∧ x.b = r.2 ∧ x.n = none := by
  have hN : 0 < N := by
    have : 0 < s.tris.length := by have := T.count; omega
    have := (T.vertices (s.tris[0].v 0)).2 ⟨s.tris[0], List.getElem_mem _, 0, rfl⟩
    omega
  have lv : ∀ x : Sd s.tris, Leaves (fun _ => True) x → (x.a, x.b) ∈ [(0, 1), (1, 2), (2, 0)] ∧ x.n = none := by
    intro x hx
    have hn : x.n = none := by
      cases hn : x.n with
      | none => rfl
      | some k => exact absurd trivial (hx.2 k hn)
    exact ⟨(T.border x.1 x.tri x.2 x.get).1 hn, hn⟩
  have some0 : ∃ x : Sd s.tris, Leaves (fun _ => True) x ∧ (x.a = 0 ∨ x.b = 0) := by
    obtain ⟨t, ht, i, hi⟩ := (T.vertices 0).1 hN
    obtain ⟨k, ek⟩ := List.mem_iff_getElem?.1 ht
    by_contra hno
    exact h.fan_at T (fun _ => True) (c := 0) (by omega) (fun x hx => ⟨fun e => hno ⟨x, hx, .inl e⟩, fun e => hno ⟨x, hx, .inr e⟩⟩) (k := k) trivial ⟨t, i, ek, hi⟩
  have step : ∀ {v : Nat}, (∃ x : Sd s.tris, Leaves (fun _ => True) x ∧ x.b = v) → ∃ y : Sd s.tris, Leaves (fun _ => True) y ∧ y.a = v := fun hx => (T.mutual.turn _).1 hx
  have from0 : (∃ x : Sd s.tris, Leaves (fun _ => True) x ∧ x.b = 0) := by
    obtain ⟨x, hx, ha | hb⟩ := some0
    · exact (T.mutual.turn _).2 ⟨x, hx, ha⟩
    · exact ⟨x, hx, hb⟩
  obtain ⟨x0, l0, a0⟩ := step from0
  obtain ⟨m0, n0⟩ := lv x0 l0
  have b0 : x0.b = 1 := by simp only [List.mem_cons, Prod.mk.injEq, List.not_mem_nil, or_false] at m0; omega
  obtain ⟨x1, l1, a1⟩ := step ⟨x0, l0, b0⟩
  obtain ⟨m1, n1⟩ := lv x1 l1
  have b1 : x1.b = 2 := by simp only [List.mem_cons, Prod.mk.injEq, List.not_mem_nil, or_false] at m1; omega
  obtain ⟨x2, l2, a2⟩ := step ⟨x1, l1, b1⟩
  obtain ⟨m2, n2⟩ := lv x2 l2
  have b2 : x2.b = 0 := by simp only [List.mem_cons, Prod.mk.injEq, List.not_mem_nil, or_false] at m2; omega
  intro r hr
  simp only [List.mem_cons, List.not_mem_nil, or_false] at hr
  rcases hr with rfl | rfl | rfl
  exacts [⟨x0, a0, b0, n0⟩, ⟨x1, a1, b1, n1⟩, ⟨x2, a2, b2, n2⟩]

/-- The sides of the super-triangle have no triangle on their other side. -/
theorem Placed.no_back (h : Placed pos N) (T : Triangulation pos N s) (x : Sd s.tris) : (x.b, x.a) ∉ [(0, 1), (1, 2), (2, 0)] := by
  have c := ccw_at (T.mutual.ccw_get x.get) x.2
  have lt : x.tri.v (x.2 + 2) < N := (T.vertices _).2 ⟨x.tri, List.mem_of_getElem? x.get, _, rfl⟩
  obtain ⟨c0, c1, c2⟩ := h.closed lt
  have e : orient2d (pos x.b) (pos x.a) (pos (x.tri.v (x.2 + 2))) < 0 := by
    rw [orient_swap]
    exact neg_neg_of_pos c
  intro hr
  simp only [List.mem_cons, Prod.mk.injEq, List.not_mem_nil, or_false] at hr
  rcases hr with ⟨p, q⟩ | ⟨p, q⟩ | ⟨p, q⟩ <;> rw [p, q] at e <;> linarith

variable {root : Fin s.tris.length} {p : Fin s.tris.length → Fin 3} {rank : Nat → Nat}

/-- Not crossed by the tree, and a part of the vertices that is closed under such edges: all. -/
theorem Parents.connected (h : Placed pos N) (T : Triangulation pos N s) (P : Parents s.tris root p rank) (A : Nat → Prop)
    (closed : ∀ u v, A u → IsEdge s.tris u v → ¬Crossed s.tris p u v → A v) {u v : Nat} (hu : u < N) (hv : v < N) (hA : A u) : A v := by
  -- an edge between different colours is crossed
  have cut : ∀ x : Sd s.tris, ¬(A x.a ↔ A x.b) → Crossed s.tris p x.a x.b := by
    intro x hx
    by_contra hc
    exact hx ⟨fun ha => closed _ _ ha ⟨x, .inl ⟨rfl, rfl⟩⟩ hc, fun hb => closed _ _ hb ⟨x, .inr ⟨rfl, rfl⟩⟩ (fun h => hc h.symm)⟩
  -- no triangle has such a side
  have key : ∀ (m : Nat) (x : Sd s.tris), (∀ y : Sd s.tris, ¬(A y.a ↔ A y.b) → rank y.1 ≤ m) → m ≤ rank x.1 → (A x.a ↔ A x.b) := by
    intro m x hmax hm
    by_contra hx
    -- the crossed side of a triangle with the largest rank is the one to its parent
    have par : ∀ y : Sd s.tris, y.1 = x.1 → ¬(A y.a ↔ A y.b) → y.2 = p y.1 := by
      intro y hy hy'
      obtain ⟨k, ⟨e1, e2⟩ | ⟨e1, e2⟩⟩ := cut y hy'
      · have := T.unique e1 e2
        rw [← this]
      · exfalso
        by_cases hr : k = root
        · subst hr
          have := (T.border k _ (p k) (Sd.get ((k, p k) : Sd s.tris))).1 P.root_side
          apply h.no_back T y
          rw [← e1, ← e2]
          exact this
        · obtain ⟨k', hn, hlt⟩ := P.up k hr
          obtain ⟨z, hz, za, zb, -⟩ := T.mutual.mate (k, p k) hn
          have := T.unique (x := z) (y := y) (za.trans e2) (zb.trans e1)
          subst this
          have h1 := hmax (k, p k) (by rw [e1, e2]; exact fun hh => hy' ⟨hh.2, hh.1⟩)
          rw [← hz, hy] at hlt
          dsimp only at h1
          omega
    -- but there are two
    have two : ∃ y : Sd s.tris, y.1 = x.1 ∧ y.2 ≠ x.2 ∧ ¬(A y.a ↔ A y.b) := by
      by_contra hno
      have h1 : A (x.tri.v (x.2 + 1)) ↔ A (x.tri.v (x.2 + 1 + 1)) := by
        by_contra hh
        exact hno ⟨(x.1, x.2 + 1), rfl, by have := fin_ne x.2; exact this.1, hh⟩
      have h2 : A (x.tri.v (x.2 + 2)) ↔ A (x.tri.v (x.2 + 2 + 1)) := by
        by_contra hh
        exact hno ⟨(x.1, x.2 + 2), rfl, by have := fin_ne x.2; exact this.2.1, hh⟩
      rw [fin_c] at h1
      rw [fin_a] at h2
      exact hx (h2.symm.trans h1.symm)
    obtain ⟨y, hy, hy2, hy'⟩ := two
    have q1 := par y hy hy'
    have q2 := par x rfl hx
    rw [hy] at q1
    exact hy2 (q1.trans q2.symm)
  have none : ∀ x : Sd s.tris, A x.a ↔ A x.b := by
    by_contra hno
    push Not at hno
    obtain ⟨x, hx⟩ := hno
    classical
    obtain ⟨y, hy, hmax⟩ := Finset.exists_max_image (Finset.univ.filter (fun x : Sd s.tris => ¬(A x.a ↔ A x.b))) (fun x => rank x.1) ⟨x, Finset.mem_filter.2 ⟨Finset.mem_univ _, by tauto⟩⟩
    exact (Finset.mem_filter.1 hy).2 (key (rank y.1) y (fun z hz => hmax z (Finset.mem_filter.2 ⟨Finset.mem_univ _, hz⟩)) (Nat.le_refl _))
  -- so the triangles have one colour, and neighbours the same
  have tri : ∀ (k : Fin s.tris.length) (i : Fin 3), A (s.tris[k].v i) ↔ A (s.tris[k].v 0) := by
    intro k i
    have h0 : A (s.tris[k].v 0) ↔ A (s.tris[k].v 1) := none (k, 0)
    have h1 : A (s.tris[k].v 1) ↔ A (s.tris[k].v 2) := none (k, 1)
    fin_cases i
    · exact Iff.rfl
    · exact h0.symm
    · exact (h0.trans h1).symm
  have all : ∀ (m : Nat) (k : Fin s.tris.length), rank k ≤ m → (A (s.tris[k].v 0) ↔ A (s.tris[root].v 0)) := by
    intro m
    induction m with
    | zero =>
      intro k hk
      by_cases hr : k = root
      · rw [hr]
      · obtain ⟨k', -, hlt⟩ := P.up k hr
        omega
    | succ m ih =>
      intro k hk
      by_cases hr : k = root
      · rw [hr]
      · obtain ⟨k', hn, hlt⟩ := P.up k hr
        obtain ⟨z, hz, za, zb, -⟩ := T.mutual.mate (k, p k) hn
        rw [← ih z.1 (by rw [hz]; omega), ← tri z.1 z.2, ← tri k (p k + 1)]
        have : s.tris[z.1].v z.2 = s.tris[k].v (p k + 1) := za
        rw [this]
  obtain ⟨t, ht, i, hi⟩ := (T.vertices u).1 hu
  obtain ⟨t', ht', i', hi'⟩ := (T.vertices v).1 hv
  obtain ⟨k, hk, rfl⟩ := List.mem_iff_getElem.1 ht
  obtain ⟨k', hk', rfl⟩ := List.mem_iff_getElem.1 ht'
  have e1 := (tri ⟨k, hk⟩ i).trans (all _ ⟨k, hk⟩ (Nat.le_refl _))
  have e2 := (tri ⟨k', hk'⟩ i').trans (all _ ⟨k', hk'⟩ (Nat.le_refl _))
  have e1' : A u ↔ A (s.tris[root].v 0) := by rw [← hi]; exact e1
  have e2' : A v ↔ A (s.tris[root].v 0) := by rw [← hi']; exact e2
  exact e2'.2 (e1'.1 hA)

/-- The edges that are not crossed. -/
def Free (ts : List Tri) (p : Fin ts.length → Fin 3) (u v : Nat) : Prop := IsEdge ts u v ∧ ¬Crossed ts p u v

open Classical in
/-- How many: twice the number. -/
theorem Parents.count (h : Placed pos N) (T : Triangulation pos N s) (P : Parents s.tris root p rank) (three : 3 ≤ N) :
    (((Finset.range N) ×ˢ (Finset.range N)).filter (fun e => Free s.tris p e.1 e.2)).card + 2 = 2 * N := by
  obtain ⟨D, hD⟩ : ∃ D : Finset (Nat × Nat), D = Finset.univ.image (fun x : Sd s.tris => (x.a, x.b)) ∪ {(1, 0), (2, 1), (0, 2)} := ⟨_, rfl⟩
  obtain ⟨C, hC⟩ : ∃ C : Finset (Nat × Nat), C = Finset.univ.image (fun k => (Sd.a ((k, p k) : Sd s.tris), Sd.b ((k, p k) : Sd s.tris))) ∪ Finset.univ.image (fun k => (Sd.b ((k, p k) : Sd s.tris), Sd.a ((k, p k) : Sd s.tris))) := ⟨_, rfl⟩
  have mD : ∀ u v, (u, v) ∈ D ↔ IsEdge s.tris u v := by
    intro u v
    rw [hD, Finset.mem_union, Finset.mem_image]
    constructor
    · rintro (⟨x, -, hx⟩ | hx)
      · simp only [Prod.mk.injEq] at hx
        exact ⟨x, .inl hx⟩
      · simp only [Finset.mem_insert, Prod.mk.injEq, Finset.mem_singleton] at hx
        have : ∀ r ∈ [(0, 1), (1, 2), (2, 0)], (v, u) = r → IsEdge s.tris u v := by
          intro r hr e
          obtain ⟨x, ha, hb, -⟩ := h.rims T r hr
          rw [← e] at ha hb
          exact ⟨x, .inr ⟨ha, hb⟩⟩
        rcases hx with ⟨rfl, rfl⟩ | ⟨rfl, rfl⟩ | ⟨rfl, rfl⟩
        · exact this (0, 1) (by simp) rfl
        · exact this (1, 2) (by simp) rfl
        · exact this (2, 0) (by simp) rfl
    · rintro ⟨x, ⟨ha, hb⟩ | ⟨ha, hb⟩⟩
      · exact .inl ⟨x, Finset.mem_univ _, by rw [ha, hb]⟩
      · cases hn : x.n with
        | none =>
          right
          have := (T.border x.1 x.tri x.2 x.get).1 hn
          have e : (x.a, x.b) ∈ [(0, 1), (1, 2), (2, 0)] := this
          rw [ha, hb] at e
          simp only [List.mem_cons, Prod.mk.injEq, List.not_mem_nil, or_false] at e
          simp only [Finset.mem_insert, Prod.mk.injEq, Finset.mem_singleton]
          omega
        | some k =>
          obtain ⟨y, -, ya, yb, -⟩ := T.mutual.mate x hn
          exact .inl ⟨y, Finset.mem_univ _, by rw [ya, yb, ha, hb]⟩
  have mC : ∀ u v, (u, v) ∈ C ↔ Crossed s.tris p u v := by
    intro u v
    rw [hC, Finset.mem_union, Finset.mem_image, Finset.mem_image]
    simp only [Finset.mem_univ, true_and, Prod.mk.injEq]
    constructor
    · rintro (⟨k, a, b⟩ | ⟨k, a, b⟩)
      · exact ⟨k, .inl ⟨a, b⟩⟩
      · exact ⟨k, .inr ⟨b, a⟩⟩
    · rintro ⟨k, ⟨a, b⟩ | ⟨a, b⟩⟩
      · exact .inl ⟨k, a, b⟩
      · exact .inr ⟨k, b, a⟩
  have cD : D.card = 3 * s.tris.length + 3 := by
    rw [hD, Finset.card_union_of_disjoint, Finset.card_image_of_injective]
    · rw [Finset.card_univ, Fintype.card_prod, Fintype.card_fin, Fintype.card_fin]
      have : ({(1, 0), (2, 1), (0, 2)} : Finset (Nat × Nat)).card = 3 := rfl
      omega
    · intro x y e
      simp only [Prod.mk.injEq] at e
      exact T.unique e.1 e.2
    · rw [Finset.disjoint_left]
      intro e he he'
      obtain ⟨x, -, rfl⟩ := Finset.mem_image.1 he
      have := h.no_back T x
      simp only [List.mem_cons, Prod.mk.injEq, List.not_mem_nil, or_false] at this
      simp only [Finset.mem_insert, Prod.mk.injEq, Finset.mem_singleton] at he'
      omega
  have cC : C.card = 2 * s.tris.length := by
    rw [hC, Finset.card_union_of_disjoint, Finset.card_image_of_injective, Finset.card_image_of_injective]
    · rw [Finset.card_univ, Fintype.card_fin]; omega
    · intro x y e
      simp only [Prod.mk.injEq] at e
      have := T.unique e.2 e.1
      exact congrArg (·.1) this
    · intro x y e
      simp only [Prod.mk.injEq] at e
      have := T.unique e.1 e.2
      exact congrArg (·.1) this
    · rw [Finset.disjoint_left]
      intro e he he'
      obtain ⟨k, -, rfl⟩ := Finset.mem_image.1 he
      obtain ⟨k', -, e'⟩ := Finset.mem_image.1 he'
      simp only [Prod.mk.injEq] at e'
      obtain ⟨e1, e2⟩ := e'
      have hb : ∀ r : Fin s.tris.length, Sd.n ((r, p r) : Sd s.tris) = none → ∀ x : Sd s.tris, ¬(x.b = Sd.a ((r, p r) : Sd s.tris) ∧ x.a = Sd.b ((r, p r) : Sd s.tris)) := by
        intro r hr x hx
        apply h.no_back T x
        rw [hx.1, hx.2]
        exact (T.border r _ (p r) (Sd.get ((r, p r) : Sd s.tris))).1 hr
      by_cases hr : k = root
      · subst hr
        exact hb k P.root_side _ ⟨e1, e2⟩
      · by_cases hr' : k' = root
        · subst hr'
          exact hb k' P.root_side _ ⟨e2.symm, e1.symm⟩
        · obtain ⟨m, hn, hlt⟩ := P.up k hr
          obtain ⟨m', hn', hlt'⟩ := P.up k' hr'
          obtain ⟨z, hz, za, zb, zn⟩ := T.mutual.mate (k, p k) hn
          obtain ⟨z', hz', za', zb', -⟩ := T.mutual.mate (k', p k') hn'
          have q1 := T.unique (x := z) (y := (k', p k')) (by rw [za, ← e2]) (by rw [zb, ← e1])
          have q2 := T.unique (x := z') (y := (k, p k)) (by rw [za', e1]) (by rw [zb', e2])
          rw [q1] at hz
          rw [q2] at hz'
          rw [← hz] at hlt
          rw [← hz'] at hlt'
          dsimp only at hlt hlt'
          omega
  have sub : C ⊆ D := by
    rintro ⟨u, v⟩ hc
    rw [mD]
    obtain ⟨k, hk⟩ := (mC u v).1 hc
    exact ⟨_, hk⟩
  have e : ((Finset.range N) ×ˢ (Finset.range N)).filter (fun e => Free s.tris p e.1 e.2) = D \ C := by
    apply Finset.ext
    rintro ⟨u, v⟩
    rw [Finset.mem_filter, Finset.mem_sdiff, mD, mC, Finset.mem_product, Finset.mem_range, Finset.mem_range]
    constructor
    · exact fun h => h.2
    · intro hh
      refine ⟨?_, hh⟩
      obtain ⟨x, ⟨rfl, rfl⟩ | ⟨rfl, rfl⟩⟩ := hh.1
      · exact x.lt T
      · exact ⟨(x.lt T).2, (x.lt T).1⟩
  rw [e, Finset.card_sdiff_of_subset sub, cD, cC]
  have := T.count
  omega

/-- Between the ends of an edge that is not crossed there is no other way along edges that are not crossed. -/
theorem Parents.bridge (h : Placed pos N) (T : Triangulation pos N s) (P : Parents s.tris root p rank) (three : 3 ≤ N) {a b : Nat} (hab : Free s.tris p a b) :
    ¬Relation.ReflTransGen (fun u v => Free s.tris p u v ∧ edge u v ≠ edge a b) a b := by
  classical
  intro path
  have fsymm : ∀ {u v}, Free s.tris p u v → Free s.tris p v u := fun h => ⟨h.1.symm, fun hc => h.2 hc.symm⟩
  have fne : ∀ {u v}, Free s.tris p u v → u ≠ v := by
    rintro u v ⟨⟨x, ⟨rfl, rfl⟩ | ⟨rfl, rfl⟩⟩, -⟩
    exacts [x.ne T, (x.ne T).symm]
  have flt : ∀ {u v}, Free s.tris p u v → u < N ∧ v < N := by
    rintro u v ⟨⟨x, ⟨rfl, rfl⟩ | ⟨rfl, rfl⟩⟩, -⟩
    exacts [x.lt T, ⟨(x.lt T).2, (x.lt T).1⟩]
  obtain ⟨ha, hb⟩ := flt hab
  -- the graph without the edge
  let G : SimpleGraph (Fin N) := { Adj := fun u v => Free s.tris p u v ∧ edge u v ≠ edge a b, symm := ⟨fun u v h => ⟨fsymm h.1, by rw [edge_comm]; exact h.2⟩⟩, loopless := ⟨fun u h => fne h.1 rfl⟩ }
  have adj : ∀ u v : Fin N, G.Adj u v ↔ Free s.tris p u v ∧ edge u v ≠ edge a b := fun _ _ => Iff.rfl
  have reach : ∀ u v : Nat, (hu : u < N) → Relation.ReflTransGen (fun u v => Free s.tris p u v ∧ edge u v ≠ edge a b) u v → ∃ hv : v < N, G.Reachable ⟨u, hu⟩ ⟨v, hv⟩ := by
    intro u v hu hr
    induction hr with
    | refl => exact ⟨hu, SimpleGraph.Reachable.refl _⟩
    | tail _ hs ih =>
      obtain ⟨hm, hr⟩ := ih
      exact ⟨(flt hs.1).2, hr.trans (SimpleGraph.Adj.reachable (by rw [adj]; exact hs))⟩
  obtain ⟨_, rab⟩ := reach a b ha path
  have conn : G.Connected := by
    haveI : Nonempty (Fin N) := ⟨⟨a, ha⟩⟩
    refine SimpleGraph.Connected.mk ?_
    intro u v
    obtain ⟨u, hu⟩ := u
    obtain ⟨v, hv⟩ := v
    have := P.connected h T (fun w => ∃ hw : w < N, G.Reachable ⟨u, hu⟩ ⟨w, hw⟩) ?_ hu hv ⟨hu, SimpleGraph.Reachable.refl _⟩
    · exact this.2
    · rintro x y ⟨hx, hr⟩ he hc
      have hf : Free s.tris p x y := ⟨he, hc⟩
      have hy := (flt hf).2
      refine ⟨hy, ?_⟩
      by_cases hed : edge x y = edge a b
      · have same : ∀ (z c : Nat) (hz : z < N) (hc : c < N), z = c → G.Reachable ⟨z, hz⟩ ⟨c, hc⟩ := fun z c hz hc e => by
          cases e; exact SimpleGraph.Reachable.refl _
        rcases edge_eq.1 hed with ⟨e1, e2⟩ | ⟨e1, e2⟩
        · exact ((hr.trans (same x a hx ha e1)).trans rab).trans (same b y hb hy e2.symm)
        · exact ((hr.trans (same x b hx hb e1)).trans rab.symm).trans (same a y ha hy e2.symm)
      · exact hr.trans (SimpleGraph.Adj.reachable (by rw [adj]; exact ⟨hf, hed⟩))
  have c1 := conn.card_vert_le_card_edgeSet_add_one
  rw [Nat.card_eq_fintype_card, Fintype.card_fin, Nat.card_eq_fintype_card, ← SimpleGraph.edgeFinset_card] at c1
  have c2 := SimpleGraph.two_mul_card_edgeFinset (G := G)
  have c3 := P.count h T three
  have c4 : (Finset.univ.filter fun e : Fin N × Fin N => G.Adj e.1 e.2).card + 2 ≤ (((Finset.range N) ×ˢ (Finset.range N)).filter (fun e => Free s.tris p e.1 e.2)).card := by
    have : (Finset.univ.filter fun e : Fin N × Fin N => G.Adj e.1 e.2).card = ((Finset.univ.filter fun e : Fin N × Fin N => G.Adj e.1 e.2).image (fun e => (e.1.1, e.2.1))).card := by
      rw [Finset.card_image_of_injective]
      rintro ⟨x, y⟩ ⟨x', y'⟩ e
      simp only [Prod.mk.injEq] at e
      rw [Fin.ext e.1, Fin.ext e.2]
    rw [this]
    have two : ({(a, b), (b, a)} : Finset (Nat × Nat)).card = 2 := by
      rw [Finset.card_pair]
      intro e
      exact fne hab (Prod.mk.inj e).1
    rw [← two, ← Finset.card_union_of_disjoint]
    · apply Finset.card_le_card
      rintro ⟨x, y⟩ hxy
      rw [Finset.mem_filter, Finset.mem_product, Finset.mem_range, Finset.mem_range]
      rcases Finset.mem_union.1 hxy with hxy | hxy
      · obtain ⟨⟨u, v⟩, huv, e⟩ := Finset.mem_image.1 hxy
        cases e
        exact ⟨⟨u.2, v.2⟩, ((adj u v).1 (Finset.mem_filter.1 huv).2).1⟩
      · simp only [Finset.mem_insert, Prod.mk.injEq, Finset.mem_singleton] at hxy
        rcases hxy with ⟨rfl, rfl⟩ | ⟨rfl, rfl⟩
        · exact ⟨⟨ha, hb⟩, hab⟩
        · exact ⟨⟨hb, ha⟩, fsymm hab⟩
    · rw [Finset.disjoint_left]
      rintro ⟨x, y⟩ hxy hxy'
      obtain ⟨⟨u, v⟩, huv, e⟩ := Finset.mem_image.1 hxy
      cases e
      have := ((adj u v).1 (Finset.mem_filter.1 huv).2).2
      simp only [Finset.mem_insert, Prod.mk.injEq, Finset.mem_singleton] at hxy'
      apply this
      rcases hxy' with ⟨e1, e2⟩ | ⟨e1, e2⟩
      · rw [e1, e2]
      · rw [e1, e2, edge_comm]
  have c5 : (Finset.univ.filter fun e : Fin N × Fin N => G.Adj e.1 e.2).card = 2 * G.edgeFinset.card := c2.symm
  omega

end Mcut.Cdt
