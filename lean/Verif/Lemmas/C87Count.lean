import Verif.Lemmas.C87Jordan

/-! # How many triangles are inside of the outline -/
namespace Mcut.Cdt
open Mcut.Geom
variable {K : Type} [Field K] [LinearOrder K] [IsStrictOrderedRing K]
variable {pos : Nat → V2 K} {N n : Nat} {s : St} {fixed : List (Nat × Nat)}

theorem outside_step {k k' : Nat} (h : Outside fixed s.tris k) (ho : Open fixed s.tris k k') : Outside fixed s.tris k' := by
  obtain ⟨k0, t, i, e, h3, hr⟩ := h
  exact ⟨k0, t, i, e, h3, hr.tail ho⟩

open Classical in
/-- All triangles together: as often around a point as the super-triangle. -/
theorem Placed.once (h : Placed pos N) (T : Triangulation pos N s) (q : V2 K) :
    ∑ j : Fin s.tris.length, wind q (pos (s.tris[j].v 0)) (pos (s.tris[j].v 1)) (pos (s.tris[j].v 2)) = wind q (pos 0) (pos 1) (pos 2) := by
  obtain ⟨φ, hφ⟩ : ∃ φ : Nat → Nat → Int, ∀ a b, φ a b = cross q (pos a) (pos b) := ⟨fun a b => cross q (pos a) (pos b), fun _ _ => rfl⟩
  have c := cancel T.mutual (fun _ => True) φ (fun a b => by rw [hφ, hφ]; exact cross_swap q (pos a) (pos b))
  rw [sum_sides (fun _ => True) φ] at c
  have img : (Finset.univ.filter (fun x : Sd s.tris => Leaves (fun _ => True) x)).image (fun x => (x.a, x.b)) = {(0, 1), (1, 2), (2, 0)} := by
    apply Finset.ext
    rintro ⟨u, v⟩
    simp only [Finset.mem_image, Finset.mem_filter, Finset.mem_univ, true_and]
    constructor
    · rintro ⟨x, hx, e⟩
      have hn : x.n = none := by
        cases hn : x.n with
        | none => rfl
        | some k => exact absurd trivial (hx.2 k hn)
      have m : (x.a, x.b) ∈ [(0, 1), (1, 2), (2, 0)] := (T.border x.1 x.tri x.2 x.get).1 hn
      rw [e] at m
      simpa using m
    · intro m
      obtain ⟨x, ha, hb, hn⟩ := h.rims T (u, v) (by simpa using m)
      exact ⟨x, ⟨trivial, fun k hk => by rw [hn] at hk; cases hk⟩, by rw [ha, hb]⟩
  have e1 := Finset.sum_image (s := Finset.univ.filter (fun x : Sd s.tris => Leaves (fun _ => True) x)) (g := fun x : Sd s.tris => (x.a, x.b)) (f := fun e => φ e.1 e.2) (fun x _ y _ e => by
    simp only [Prod.mk.injEq] at e
    exact T.unique e.1 e.2)
  rw [img] at e1
  have e2 : ∑ e ∈ ({(0, 1), (1, 2), (2, 0)} : Finset (Nat × Nat)), φ e.1 e.2 = φ 0 1 + (φ 1 2 + φ 2 0) := by
    rw [Finset.sum_insert (by simp), Finset.sum_insert (by simp), Finset.sum_singleton]
  rw [e2] at e1
  have c' := c.trans e1.symm
  simp only [hφ, Finset.filter_true] at c'
  unfold wind
  rw [c', add_assoc]

/-- A set of triangles that are not outside, closed under crossing sides that are not fixed, is not empty only if it has all of them. -/
theorem Outlined.whole (h : Placed pos (n + 3)) (T : Triangulation pos (n + 3) s) (O : Outlined s n fixed) {S : Nat → Prop} (closed : ∀ k k', S k → Open fixed s.tris k k' → S k') (inner : ∀ k, S k → ¬Outside fixed s.tris k)
    {k : Nat} (hk : k < s.tris.length) (hS : S k) {k' : Nat} (hk' : k' < s.tris.length) (hi : ¬Outside fixed s.tris k') : S k' := by
  classical
  obtain ⟨S', hS'⟩ : ∃ S' : Nat → Prop, ∀ k, S' k ↔ ¬Outside fixed s.tris k := ⟨_, fun _ => Iff.rfl⟩
  have closed' : ∀ k k', S' k → Open fixed s.tris k k' → S' k' := fun k k' h ho => by
    rw [hS'] at h ⊢
    exact fun h' => h (outside_step h' (T.mutual.open_symm ho))
  have inner' : ∀ k, S' k → ¬Outside fixed s.tris k := fun k h => (hS' k).1 h
  obtain ⟨-, ε, hε, e⟩ := O.sum T closed inner hk hS
  obtain ⟨-, ε', hε', e'⟩ := O.sum T closed' inner' hk ((hS' k).2 (inner k hS))
  -- how often the triangles of the two sets cover a point
  have w : ∀ q : V2 K, ∃ W : Int, (∑ j : Fin s.tris.length with S j.1, wind q (pos (s.tris[j].v 0)) (pos (s.tris[j].v 1)) (pos (s.tris[j].v 2))) = ε * W ∧ (∑ j : Fin s.tris.length with S' j.1, wind q (pos (s.tris[j].v 0)) (pos (s.tris[j].v 1)) (pos (s.tris[j].v 2))) = ε' * W := by
    intro q
    obtain ⟨φ, hφ⟩ : ∃ φ : Nat → Nat → Int, ∀ a b, φ a b = cross q (pos a) (pos b) := ⟨fun a b => cross q (pos a) (pos b), fun _ _ => rfl⟩
    have a1 := e Int φ (fun a b => by rw [hφ, hφ]; exact cross_swap q (pos a) (pos b))
    have a2 := e' Int φ (fun a b => by rw [hφ, hφ]; exact cross_swap q (pos a) (pos b))
    rw [smul_eq_mul] at a1 a2
    simp only [hφ] at a1 a2
    exact ⟨_, a1, a2⟩
  -- strictly inside a triangle
  have at1 : ∀ (U : Nat → Prop) (j : Fin s.tris.length) (q : V2 K), U j → InOpen q ((s.tris[j]).at pos 0) ((s.tris[j]).at pos 1) ((s.tris[j]).at pos 2) → 0 < ∑ j : Fin s.tris.length with U j.1, wind q (pos (s.tris[j].v 0)) (pos (s.tris[j].v 1)) (pos (s.tris[j].v 2)) := by
    intro U j q hU hq
    apply Finset.sum_pos'
    · intro i _
      exact (wind_bound (T.ccw _ (List.getElem_mem _))).1
    · refine ⟨j, Finset.mem_filter.2 ⟨Finset.mem_univ _, hU⟩, ?_⟩
      have : wind q (pos (s.tris[j].v 0)) (pos (s.tris[j].v 1)) (pos (s.tris[j].v 2)) = 1 := (wind_spec (q := q) (T.ccw _ (List.getElem_mem _))).1 hq.1 hq.2.1 hq.2.2
      rw [this]; exact Int.one_pos
  have pt : ∀ j : Fin s.tris.length, ∃ q, InOpen q ((s.tris[j]).at pos 0) ((s.tris[j]).at pos 1) ((s.tris[j]).at pos 2) := fun j =>
    let ⟨q, h, _⟩ := overlap (T.ccw _ (List.getElem_mem j.2)) (T.ccw _ (List.getElem_mem j.2))
    ⟨q, h⟩
  -- the same direction
  have same : ε = ε' := by
    obtain ⟨q, hq⟩ := pt ⟨k, hk⟩
    have p1 := at1 S ⟨k, hk⟩ q hS hq
    have p2 := at1 S' ⟨k, hk⟩ q ((hS' k).2 (inner k hS)) hq
    obtain ⟨W, w1, w2⟩ := w q
    rw [w1] at p1
    rw [w2] at p2
    rcases hε with rfl | rfl <;> rcases hε' with rfl | rfl <;> omega
  subst same
  by_contra hno
  obtain ⟨q, hq⟩ := pt ⟨k', hk'⟩
  have p2 := at1 S' ⟨k', hk'⟩ q ((hS' k').2 hi) hq
  obtain ⟨W, w1, w2⟩ := w q
  rw [w2, ← w1] at p2
  have b0 := wind_bound (q := q) h.ccw
  rw [← h.once T q] at b0
  obtain ⟨U, hU⟩ : ∃ U : Nat → Prop, ∀ j, U j ↔ j = k' := ⟨fun j => j = k', fun _ => Iff.rfl⟩
  have p3 : ∑ j : Fin s.tris.length with S j.1 ∨ U j.1, wind q (pos (s.tris[j].v 0)) (pos (s.tris[j].v 1)) (pos (s.tris[j].v 2)) ≤ ∑ j : Fin s.tris.length, wind q (pos (s.tris[j].v 0)) (pos (s.tris[j].v 1)) (pos (s.tris[j].v 2)) :=
    Finset.sum_le_sum_of_subset_of_nonneg (Finset.filter_subset _ _) (fun j _ _ => (wind_bound (T.ccw _ (List.getElem_mem j.2))).1)
  rw [Finset.filter_or, Finset.sum_union] at p3
  · have p4 := at1 U ⟨k', hk'⟩ q ((hU k').2 rfl) hq
    omega
  · rw [Finset.disjoint_left]
    intro j h1 h2
    exact hno ((hU _).1 (Finset.mem_filter.1 h2).2 ▸ (Finset.mem_filter.1 h1).2)

/-! ## The count -/

/-- No edge is crossed in both directions. -/
theorem Parents.oriented (h : Placed pos N) (T : Triangulation pos N s) {root : Fin s.tris.length} {p : Fin s.tris.length → Fin 3} {rank : Nat → Nat} (P : Parents s.tris root p rank) {k k' : Fin s.tris.length}
    (e1 : Sd.b ((k', p k') : Sd s.tris) = Sd.a ((k, p k) : Sd s.tris)) (e2 : Sd.a ((k', p k') : Sd s.tris) = Sd.b ((k, p k) : Sd s.tris)) : False := by
  have hb : ∀ r : Fin s.tris.length, Sd.n ((r, p r) : Sd s.tris) = none → ∀ x : Sd s.tris, ¬(x.b = Sd.a ((r, p r) : Sd s.tris) ∧ x.a = Sd.b ((r, p r) : Sd s.tris)) := by
    intro r hr x hx
    apply h.no_back T x
    rw [hx.1, hx.2]
    exact (T.border r _ (p r) (Sd.get ((r, p r) : Sd s.tris))).1 hr
  by_cases hr : k = root
  · subst hr
    exact hb k P.root_side _ ⟨e1, e2⟩
  · by_cases hr' : k' = root
    · subst hr'
      exact hb k' P.root_side _ ⟨e2.symm, e1.symm⟩
    · obtain ⟨m, hn, hlt⟩ := P.up k hr
      obtain ⟨m', hn', hlt'⟩ := P.up k' hr'
      obtain ⟨z, hz, za, zb, zn⟩ := T.mutual.mate (k, p k) hn
      obtain ⟨z', hz', za', zb', -⟩ := T.mutual.mate (k', p k') hn'
      have q1 := T.unique (x := z) (y := (k', p k')) (by rw [za, ← e2]) (by rw [zb, ← e1])
      have q2 := T.unique (x := z') (y := (k, p k)) (by rw [za', e1]) (by rw [zb', e2])
      rw [q1] at hz
      rw [q2] at hz'
      rw [← hz] at hlt
      rw [← hz'] at hlt'
      dsimp only at hlt hlt'
      omega

/-- The triangles that are not outside are a tree, with its root at any edge of the outline. -/
structure RootedTree (s : St) (fixed : List (Nat × Nat)) (S : Nat → Prop) (x : Sd s.tris) (p : Fin s.tris.length → Fin 3) (rank : Nat → Nat) : Prop where
  root : Leaves S x
  up : ∀ k : Fin s.tris.length, S k → k ≠ x.1 → ∃ k', Sd.n ((k, p k) : Sd s.tris) = some k' ∧ rank k' < rank k ∧ S k'
  side : p x.1 = x.2
  only : ∀ z : Sd s.tris, S z.1 → edge z.a z.b ∉ fixed → Crossed s.tris p z.a z.b
  orient : ∀ k k' : Fin s.tris.length, ¬(Sd.b ((k', p k') : Sd s.tris) = Sd.a ((k, p k) : Sd s.tris) ∧ Sd.a ((k', p k') : Sd s.tris) = Sd.b ((k, p k) : Sd s.tris))

theorem Outlined.tree (h : Placed pos (n + 3)) (T : Triangulation pos (n + 3) s) (O : Outlined s n fixed) (hf : FixedEdges (n + 3) fixed) {i0 : Nat} (hi0 : i0 < n) :
    ∃ (x : Sd s.tris) (p : Fin s.tris.length → Fin 3) (rank : Nat → Nat), RootedTree s fixed (fun k => ¬Outside fixed s.tris k) x p rank ∧ edge x.a x.b = edge (i0 + 3) ((i0 + 1) % n + 3) := by
  classical
  have three := O.three
  obtain ⟨S, hS⟩ : ∃ S : Nat → Prop, ∀ k, S k ↔ ¬Outside fixed s.tris k := ⟨_, fun _ => Iff.rfl⟩
  have closed : ∀ k k', S k → Open fixed s.tris k k' → S k' := fun k k' h ho => by
    rw [hS] at h ⊢
    exact fun h' => h (outside_step h' (T.mutual.open_symm ho))
  have inner : ∀ k, S k → ¬Outside fixed s.tris k := fun k h => (hS k).1 h
  obtain ⟨k1, hk1, hi1⟩ := O.inside h T hf
  have hf' : ∀ e ∈ fixed, 3 ≤ e.1 ∧ 3 ≤ e.2 := fun e he => by have := hf e he; omega
  have corner3 : ∀ k : Fin s.tris.length, S k → ∀ i, 3 ≤ s.tris[k].v i := by
    intro k hk i
    by_contra hc
    exact inner _ hk ⟨k, _, i, List.getElem?_eq_getElem k.2, by show s.tris[k].v i < 3; omega, .refl⟩
  -- the edge of the outline, from the inside
  obtain ⟨x, lx, ex⟩ : ∃ x : Sd s.tris, Leaves S x ∧ edge x.a x.b = edge (i0 + 3) ((i0 + 1) % n + 3) := by
    rcases O.border T closed inner hk1 ((hS k1).2 hi1) with hb | hb
    · obtain ⟨x, lx, xa, xb⟩ := (hb (i0 + 3) ((i0 + 1) % n + 3)).2 ⟨i0, hi0, rfl, rfl⟩
      exact ⟨x, lx, by rw [xa, xb]⟩
    · obtain ⟨x, lx, xa, xb⟩ := (hb ((i0 + 1) % n + 3) (i0 + 3)).2 ⟨i0, hi0, rfl, rfl⟩
      exact ⟨x, lx, by rw [xa, xb, edge_comm]⟩
  obtain ⟨hxf, kx, hxn, hxo⟩ := Outlined.leaving T closed inner lx
  -- the way in
  obtain ⟨⟨root, r0⟩, ra, rb, rn⟩ := h.rims T (0, 1) (by simp)
  have hs : Corner s.tris root 0 := ⟨_, r0, Sd.get ((root, r0) : Sd s.tris), ra⟩
  obtain ⟨X, hX⟩ : ∃ X : Nat → Nat → Prop, ∀ u v, X u v ↔ (edge u v ∉ fixed ∨ edge u v = edge (i0 + 3) ((i0 + 1) % n + 3)) := ⟨_, fun _ _ => Iff.rfl⟩
  have symX : ∀ u v, X u v → X v u := fun u v h => by rw [hX] at h ⊢; rwa [edge_comm u v] at h
  have subX : ∀ u v, edge u v ∉ fixed → X u v := fun u v h => (hX u v).2 (.inl h)
  have outR : ∀ k : Fin s.tris.length, ¬S k → Relation.ReflTransGen (fun k k' : Fin s.tris.length => ∃ i, Sd.n ((k, i) : Sd s.tris) = some k'.1 ∧ X (Sd.a ((k, i) : Sd s.tris)) (Sd.b ((k, i) : Sd s.tris))) root k := by
    intro k hk
    have : Outside fixed s.tris k := by rw [hS] at hk; exact not_not.1 hk
    exact (lift_open T X subX ((h.outside_iff T hf' hs k).1 this) root.2).2
  obtain ⟨y, hy, ya, yb, yn⟩ := T.mutual.mate x hxn
  have xR : Relation.ReflTransGen (fun k k' : Fin s.tris.length => ∃ i, Sd.n ((k, i) : Sd s.tris) = some k'.1 ∧ X (Sd.a ((k, i) : Sd s.tris)) (Sd.b ((k, i) : Sd s.tris))) root x.1 := by
    refine (outR y.1 (by rw [hy]; exact hxo)).tail ⟨y.2, yn, (hX _ _).2 (.inr ?_)⟩
    show edge y.a y.b = _
    rw [ya, yb, edge_comm]; exact ex
  have inR : ∀ k : Fin s.tris.length, S k → Relation.ReflTransGen (Open fixed s.tris) x.1 k := by
    intro k hk
    refine O.whole h T (S := fun k => Relation.ReflTransGen (Open fixed s.tris) x.1 k) (fun a b ha ho => ha.tail ho) ?_ x.1.2 .refl k.2 (inner k hk)
    intro k hk
    apply inner
    induction hk with
    | refl => exact lx.1
    | tail _ ho ih => exact closed _ _ ih ho
  obtain ⟨p, rank, P, hp⟩ := parents_exist T rn X symX (by
    intro k
    by_cases hk : S k
    · exact xR.trans (lift_open T X subX (inR k hk) x.1.2).2
    · exact outR k hk)
  -- the edges that are not fixed are crossed
  have freeO : ∀ i, i ≠ i0 → i < n → Free s.tris p (i + 3) ((i + 1) % n + 3) := fun i h1 hi =>
    ⟨O.there i hi, fun hc => by
      rcases (hX _ _).1 (crossed_in T P symX hp (by omega) hc) with h2 | h2
      · exact h2 ((O.fix _ _).2 ⟨i, hi, rfl⟩)
      · exact Outlined.other_edge three hi0 hi h1 h2⟩
  have crossed : ∀ z : Sd s.tris, S z.1 → edge z.a z.b ∉ fixed → Crossed s.tris p z.a z.b := by
    intro z hz hnf
    by_contra hc
    have a3 : 3 ≤ z.a := corner3 z.1 hz z.2
    have b3 : 3 ≤ z.b := corner3 z.1 hz (z.2 + 1)
    have lt := z.lt T
    apply P.bridge h T (by omega) (a := z.a) (b := z.b) ⟨⟨z, .inl ⟨rfl, rfl⟩⟩, hc⟩
    have := Outlined.path (i0 := i0) (R := fun u v => Free s.tris p u v ∧ edge u v ≠ edge z.a z.b) three (u := z.a - 3) (v := z.b - 3) ?_ ?_ (by omega) (by omega)
    · rwa [show z.a - 3 + 3 = z.a by omega, show z.b - 3 + 3 = z.b by omega] at this
    · rintro u v ⟨h1, h2⟩
      exact ⟨⟨h1.1.symm, fun hc => h1.2 hc.symm⟩, by rw [edge_comm]; exact h2⟩
    · intro i h1 hi
      exact ⟨freeO i h1 hi, fun e => hnf (by rw [← e]; exact (O.fix _ _).2 ⟨i, hi, rfl⟩)⟩
  have orient : ∀ k k' : Fin s.tris.length, ¬(Sd.b ((k', p k') : Sd s.tris) = Sd.a ((k, p k) : Sd s.tris) ∧ Sd.a ((k', p k') : Sd s.tris) = Sd.b ((k, p k) : Sd s.tris)) := fun k k' e => P.oriented h T e.1 e.2
  -- the only triangle with its parent outside
  have rootOut : ¬S root := by
    intro hr
    have := corner3 root hr r0
    have e : s.tris[root].v r0 = 0 := ra
    omega
  have only : ∀ k : Fin s.tris.length, S k → Leaves S ((k, p k) : Sd s.tris) → ((k, p k) : Sd s.tris) = x := by
    intro k hk hl
    have hkr : k ≠ root := by rintro rfl; exact rootOut hk
    obtain ⟨hfx, m, hn, hno⟩ := Outlined.leaving T closed inner hl
    have e : edge (Sd.a ((k, p k) : Sd s.tris)) (Sd.b ((k, p k) : Sd s.tris)) = edge x.a x.b := by
      rcases (hX _ _).1 (hp k hkr) with h1 | h1
      · exact absurd hfx h1
      · rw [h1, ex]
    rcases edge_eq.1 e with ⟨h1, h2⟩ | ⟨h1, h2⟩
    · exact T.unique h1 h2
    · exact (leaves_one T lx hl hxn h1 h2).elim
  have some1 : ∃ k : Fin s.tris.length, S k ∧ Leaves S ((k, p k) : Sd s.tris) := by
    obtain ⟨k, hk, hmin⟩ := Finset.exists_min_image (Finset.univ.filter (fun k : Fin s.tris.length => S k)) (fun k => rank k) ⟨x.1, Finset.mem_filter.2 ⟨Finset.mem_univ _, lx.1⟩⟩
    have hk := (Finset.mem_filter.1 hk).2
    refine ⟨k, hk, hk, ?_⟩
    intro m hn hm
    have hkr : k ≠ root := by rintro rfl; exact rootOut hk
    obtain ⟨m', hn', hlt⟩ := P.up k hkr
    have : m' = m := Option.some.inj (hn'.symm.trans hn)
    subst this
    obtain ⟨z, hz, -⟩ := T.mutual.mate (k, p k) hn
    have := hmin z.1 (Finset.mem_filter.2 ⟨Finset.mem_univ _, by rw [hz]; exact hm⟩)
    rw [hz] at this
    omega
  obtain ⟨k2, hk2, lk2⟩ := some1
  have px : p x.1 = x.2 := by
    have := only k2 hk2 lk2
    rw [← this]
  have eS : S = fun k => ¬Outside fixed s.tris k := funext fun k => propext (hS k)
  rw [eS] at only lx rootOut crossed
  refine ⟨x, p, rank, ⟨lx, fun k hk hne => ?_, px, crossed, orient⟩, ex⟩
  have hkr : k ≠ root := by rintro rfl; exact rootOut hk
  obtain ⟨k', h1, h2⟩ := P.up k hkr
  refine ⟨k', h1, h2, ?_⟩
  by_contra hc
  have := only k hk ⟨hk, fun m hm => by
    have e : k' = m := Option.some.inj (h1.symm.trans hm)
    rw [← e]; exact fun h' => h' hc⟩
  exact hne (congrArg (·.1) this)

/-- The border of the triangles that are not outside: at fixed edges. -/
theorem Outlined.leaves_iff (T : Triangulation pos (n + 3) s) (O : Outlined s n fixed) {z : Sd s.tris} (hz : ¬Outside fixed s.tris z.1) :
    edge z.a z.b ∈ fixed ↔ Leaves (fun k => ¬Outside fixed s.tris k) z := by
  obtain ⟨S, hS⟩ : ∃ S : Nat → Prop, S = fun k => ¬Outside fixed s.tris k := ⟨_, rfl⟩
  have closed : ∀ k k', S k → Open fixed s.tris k k' → S k' := fun k k' h ho => by
    rw [hS] at h ⊢
    exact fun h' => h (outside_step h' (T.mutual.open_symm ho))
  have inner : ∀ k, S k → ¬Outside fixed s.tris k := fun k h => by rw [hS] at h; exact h
  rw [← hS]
  have hz : S z.1 := by rw [hS]; exact hz
  constructor
  · intro hfx
    obtain ⟨i, hi, e⟩ := (O.fix _ _).1 hfx
    have hb := O.border T closed inner z.1.2 hz
    have bd : ∃ q : Sd s.tris, Leaves S q ∧ ((q.a = z.a ∧ q.b = z.b) ∨ (q.a = z.b ∧ q.b = z.a)) := by
      rcases hb with hb | hb
      · obtain ⟨q, lq, qa, qb⟩ := (hb _ _).2 ⟨i, hi, rfl, rfl⟩
        refine ⟨q, lq, ?_⟩
        rcases edge_eq.1 e with ⟨h1, h2⟩ | ⟨h1, h2⟩ <;> omega
      · obtain ⟨q, lq, qa, qb⟩ := (hb _ _).2 ⟨i, hi, rfl, rfl⟩
        refine ⟨q, lq, ?_⟩
        rcases edge_eq.1 e with ⟨h1, h2⟩ | ⟨h1, h2⟩ <;> omega
    obtain ⟨q, lq, ⟨h1, h2⟩ | ⟨h1, h2⟩⟩ := bd
    · have := T.unique h1 h2
      rw [this] at lq
      exact lq
    · exfalso
      obtain ⟨-, m, hn, hno⟩ := Outlined.leaving T closed inner lq
      obtain ⟨w, hw, wa, wb, wn⟩ := T.mutual.mate q hn
      have := T.unique (x := w) (y := z) (by rw [wa, h2]) (by rw [wb, h1])
      rw [← hw, this] at hno
      exact hno hz
  · intro hl
    exact (Outlined.leaving T closed inner hl).1

open Classical in
/-- There are `n - 2` triangles that are not outside. -/
theorem Outlined.count (h : Placed pos (n + 3)) (T : Triangulation pos (n + 3) s) (O : Outlined s n fixed) (hf : FixedEdges (n + 3) fixed) :
    (Finset.univ.filter (fun k : Fin s.tris.length => ¬Outside fixed s.tris k)).card + 2 = n := by
  have three := O.three
  obtain ⟨x, p, rank, R, -⟩ := O.tree h T hf (i0 := 0) (by omega)
  obtain ⟨S, hS⟩ : ∃ S : Nat → Prop, ∀ k, S k ↔ ¬Outside fixed s.tris k := ⟨_, fun _ => Iff.rfl⟩
  have eS : S = fun k => ¬Outside fixed s.tris k := funext fun k => propext (hS k)
  rw [← eS] at R
  obtain ⟨lx, up, px, crossed, orient⟩ := R
  have closed : ∀ k k', S k → Open fixed s.tris k k' → S k' := fun k k' h ho => by
    rw [hS] at h ⊢
    exact fun h' => h (outside_step h' (T.mutual.open_symm ho))
  have inner : ∀ k, S k → ¬Outside fixed s.tris k := fun k h => (hS k).1 h
  obtain ⟨k1, hk1, hi1⟩ := O.inside h T hf
  -- counting
  obtain ⟨F, hF⟩ : ∃ F, F = Finset.univ.filter (fun k : Fin s.tris.length => S k) := ⟨_, rfl⟩
  have hFe : (Finset.univ.filter (fun k : Fin s.tris.length => ¬Outside fixed s.tris k)) = F := by
    rw [hF]
    exact Finset.filter_congr fun k _ => (hS k).symm
  rw [hFe]
  obtain ⟨I, hI⟩ : ∃ I, I = Finset.univ.filter (fun z : Sd s.tris => S z.1 ∧ ¬Leaves S z) := ⟨_, rfl⟩
  have c3 : I.card + n = 3 * F.card := by
    have e1 : (Finset.univ.filter (fun z : Sd s.tris => S z.1)).card = F.card * 3 := by
      have : (Finset.univ.filter (fun z : Sd s.tris => S z.1)) = F ×ˢ (Finset.univ : Finset (Fin 3)) := by
        apply Finset.ext
        rintro ⟨k, i⟩
        rw [hF]
        simp
      rw [this, Finset.card_product, Finset.card_univ, Fintype.card_fin]
    have e2 := Finset.card_filter_add_card_filter_not (s := Finset.univ.filter (fun z : Sd s.tris => S z.1)) (fun z => Leaves S z)
    rw [Finset.filter_filter, Finset.filter_filter, ← hI, e1] at e2
    have e3 : (Finset.univ.filter (fun z : Sd s.tris => S z.1 ∧ Leaves S z)) = Finset.univ.filter (fun z : Sd s.tris => Leaves S z) :=
      Finset.filter_congr fun z _ => ⟨fun h => h.2, fun h => ⟨h.1, h⟩⟩
    rw [e3, (O.sum T closed inner hk1 ((hS k1).2 hi1)).1] at e2
    omega
  obtain ⟨F', hF'⟩ : ∃ F', F' = F.erase x.1 := ⟨_, rfl⟩
  have cF' : F'.card + 1 = F.card := by
    rw [hF']
    exact Finset.card_erase_add_one (by rw [hF]; exact Finset.mem_filter.2 ⟨Finset.mem_univ _, lx.1⟩)
  have mF' : ∀ k, k ∈ F' ↔ S k ∧ k ≠ x.1 := by
    intro k
    rw [hF', Finset.mem_erase, hF, Finset.mem_filter]
    simp [and_comm]
  have cI : I.card = 2 * F'.card := by
    have inj : ∀ z z' : Sd s.tris, (z.a, z.b) = (z'.a, z'.b) → z = z' := by
      intro z z' e
      simp only [Prod.mk.injEq] at e
      exact T.unique e.1 e.2
    have img : I.image (fun z : Sd s.tris => (z.a, z.b)) = F'.image (fun k => (Sd.a ((k, p k) : Sd s.tris), Sd.b ((k, p k) : Sd s.tris))) ∪ F'.image (fun k => (Sd.b ((k, p k) : Sd s.tris), Sd.a ((k, p k) : Sd s.tris))) := by
      apply Finset.ext
      rintro ⟨u, v⟩
      rw [Finset.mem_union, Finset.mem_image, Finset.mem_image, Finset.mem_image]
      have inn : ∀ k, k ∈ F' → ∃ m, Sd.n ((k, p k) : Sd s.tris) = some m ∧ S m := by
        intro k hk
        obtain ⟨hk, hne⟩ := (mF' k).1 hk
        obtain ⟨m, h1, -, h2⟩ := up k hk hne
        exact ⟨m, h1, h2⟩
      constructor
      · rintro ⟨z, hz, e⟩
        rw [hI] at hz
        obtain ⟨hz, hl⟩ := (Finset.mem_filter.1 hz).2
        simp only [Prod.mk.injEq] at e
        obtain ⟨rfl, rfl⟩ := e
        have hm : ∃ m, z.n = some m ∧ S m := by
          by_contra hc
          push Not at hc
          exact hl ⟨hz, hc⟩
        obtain ⟨m, hn, hm⟩ := hm
        obtain ⟨w, hw, wa, wb, wn⟩ := T.mutual.mate z hn
        have nf : edge z.a z.b ∉ fixed := fun hfx => hl (by
          have := (O.leaves_iff T ((hS _).1 hz)).1 hfx
          rw [← eS] at this
          exact this)
        obtain ⟨k, ⟨h1, h2⟩ | ⟨h1, h2⟩⟩ := crossed z hz nf
        · left
          have e := T.unique (x := (k, p k)) (y := z) h1 h2
          refine ⟨k, (mF' k).2 ⟨by rw [← e] at hz; exact hz, ?_⟩, by rw [h1, h2]⟩
          rintro rfl
          rw [px] at e
          rw [← e] at hl
          exact hl lx
        · right
          have e := T.unique (x := (k, p k)) (y := w) (by rw [h1, wa]) (by rw [h2, wb])
          refine ⟨k, (mF' k).2 ⟨?_, ?_⟩, by rw [h1, h2]⟩
          · rw [← hw, ← e] at hm; exact hm
          · rintro rfl
            rw [px] at e
            rw [← e] at wn
            exact lx.2 _ wn hz
      · rintro (⟨k, hk, e⟩ | ⟨k, hk, e⟩)
        · obtain ⟨m, hn, hm⟩ := inn k hk
          exact ⟨(k, p k), by rw [hI]; exact Finset.mem_filter.2 ⟨Finset.mem_univ _, ((mF' k).1 hk).1, fun hl => hl.2 m hn hm⟩, e⟩
        · obtain ⟨m, hn, hm⟩ := inn k hk
          obtain ⟨w, hw, wa, wb, wn⟩ := T.mutual.mate (k, p k) hn
          refine ⟨w, by rw [hI]; exact Finset.mem_filter.2 ⟨Finset.mem_univ _, by rw [hw]; exact hm, fun hl => hl.2 _ wn ((mF' k).1 hk).1⟩, ?_⟩
          rw [wa, wb]; exact e
    rw [← Finset.card_image_of_injective I (f := fun z : Sd s.tris => (z.a, z.b)) inj, img, Finset.card_union_of_disjoint, Finset.card_image_of_injective, Finset.card_image_of_injective]
    · omega
    · intro k k' e
      simp only [Prod.mk.injEq] at e
      exact congrArg (·.1) (T.unique e.2 e.1)
    · intro k k' e
      simp only [Prod.mk.injEq] at e
      exact congrArg (·.1) (T.unique e.1 e.2)
    · rw [Finset.disjoint_left]
      intro e he he'
      obtain ⟨k, -, rfl⟩ := Finset.mem_image.1 he
      obtain ⟨k', -, e'⟩ := Finset.mem_image.1 he'
      simp only [Prod.mk.injEq] at e'
      exact orient k k' e'
  omega

end Mcut.Cdt
