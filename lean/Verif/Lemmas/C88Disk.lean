import Verif.Lemmas.C88Walk
import Verif.Lemmas.C87Tiles

/-! # The triangles that are left form a disk -/
namespace Mcut.Cdt
open Mcut.Geom
variable {K : Type} [Field K] [LinearOrder K] [IsStrictOrderedRing K]
variable {pos : Nat → V2 K} {n : Nat} {s : St} {fixed : List (Nat × Nat)}

/-- Triangles with the corners `g v`; the fixed edges are around them. -/
structure Disk (n : Nat) (ts : List Tri) (fixed : List (Nat × Nat)) (g : Nat → Nat) : Prop where
  bound : ∀ t ∈ ts, ∀ i, g (t.v i) < n
  ne : ∀ t ∈ ts, ∀ i, g (t.v i) ≠ g (t.v (i + 1))
  uniq : ∀ (k k' : Nat) (t t' : Tri) (i j : Fin 3), ts[k]? = some t → ts[k']? = some t' → g (t.v i) = g (t'.v j) → g (t.v (i + 1)) = g (t'.v (j + 1)) → k = k' ∧ i = j
  rim : ∃ fwd : Bool, ∀ t ∈ ts, ∀ i, edge (t.v i) (t.v (i + 1)) ∈ fixed → if fwd then g (t.v (i + 1)) = (g (t.v i) + 1) % n else g (t.v i) = (g (t.v (i + 1)) + 1) % n
  all : ∀ i < n, ∃ t ∈ ts, ∃ j, edge (t.v j) (t.v (j + 1)) ∈ fixed ∧ (g (t.v j) = i ∧ g (t.v (j + 1)) = (i + 1) % n ∨ g (t.v (j + 1)) = i ∧ g (t.v j) = (i + 1) % n)
  mate : ∀ (k : Nat) (t : Tri) (i : Fin 3), ts[k]? = some t → edge (t.v i) (t.v (i + 1)) ∉ fixed → ∃ (k' : Nat) (t' : Tri) (l : Fin 3), t.n i = some k' ∧ ts[k']? = some t' ∧ t'.v l = t.v (i + 1) ∧ t'.v (l + 1) = t.v i

theorem edge_add (a b : Nat) : (∃ e, edge a b = e) → ∀ c d, edge (a + 3) (b + 3) = edge (c + 3) (d + 3) ↔ edge a b = edge c d := by
  intro _ c d
  rw [edge_eq, edge_eq]
  omega

theorem disk_of (h : Placed pos (n + 3)) (T : Triangulation pos (n + 3) s) (three : 3 ≤ n) (O' : Outline s.tris n fixed) (hf : FixedEdges (n + 3) fixed) {old : List Nat} {d : Done} (E : Erased pos (n + 3) fixed s old d) :
    Disk n d.tris d.fixed (fun v => v) ∧ ∀ i0 < n, ∃ root p rank, IsTree d.fixed d.tris root p rank ∧ ∃ (t : Tri) (j : Fin 3), d.tris[root]? = some t ∧ edge (t.v j) (t.v (j + 1)) = edge i0 ((i0 + 1) % n) := by
  classical
  have O := O'.outlined three
  obtain ⟨S, hS⟩ : ∃ S : Nat → Prop, S = fun k => ¬Outside fixed s.tris k := ⟨_, rfl⟩
  have hS' : ∀ k, S k ↔ ¬Outside fixed s.tris k := fun k => by rw [hS]
  have closed : ∀ k k', S k → Open fixed s.tris k k' → S k' := fun k k' h ho => by
    rw [hS'] at h ⊢
    exact fun h' => h (outside_step h' (T.mutual.open_symm ho))
  have inner : ∀ k, S k → ¬Outside fixed s.tris k := fun k h => (hS' k).1 h
  have nd : old.Nodup := E.order.imp fun h => by omega
  have back : ∀ (j : Nat) (u : Tri), d.tris[j]? = some u → ∃ (k : Fin s.tris.length), old[j]? = some k.1 ∧ S k ∧ ∀ i, s.tris[k].v i = u.v i + 3 := by
    intro j u hu
    have hj : j < old.length := by rw [← E.len]; exact (List.getElem?_eq_some_iff.1 hu).1
    have e := List.getElem?_eq_getElem hj
    have m := (E.kept old[j]).1 (List.getElem_mem hj)
    exact ⟨⟨_, m.1⟩, e, (hS' _).2 m.2, E.corners j _ _ u e (List.getElem?_eq_getElem m.1) hu⟩
  have forth : ∀ (k : Fin s.tris.length), S k → ∃ (j : Nat) (u : Tri), old[j]? = some k.1 ∧ d.tris[j]? = some u ∧ ∀ i, s.tris[k].v i = u.v i + 3 := by
    intro k hs
    obtain ⟨j, hj⟩ := List.mem_iff_getElem?.1 ((E.kept k).2 ⟨k.2, (hS' k).1 hs⟩)
    have hj' : j < d.tris.length := by rw [E.len]; exact (List.getElem?_eq_some_iff.1 hj).1
    exact ⟨j, _, hj, List.getElem?_eq_getElem hj', E.corners j k _ _ hj (List.getElem?_eq_getElem k.2) (List.getElem?_eq_getElem hj')⟩
  have oinj : ∀ {j j' k : Nat}, old[j]? = some k → old[j']? = some k → j = j' := fun e e' =>
    (List.getElem?_inj (List.getElem?_eq_some_iff.1 e).1 nd).1 (e.trans e'.symm)
  have oS : ∀ {j k : Nat}, old[j]? = some k → S k := fun e => (hS' _).2 ((E.kept _).1 (List.mem_of_getElem? e)).2
  -- the side of the old triangle
  have fixd : ∀ (z : Sd s.tris) (u : Tri), (∀ i, s.tris[z.1].v i = u.v i + 3) → (edge (u.v z.2) (u.v (z.2 + 1)) ∈ d.fixed ↔ edge z.a z.b ∈ fixed) := by
    intro z u hv
    rw [E.fixed_edges]
    unfold Sd.a Sd.b Sd.tri
    rw [hv, hv]
  have za : ∀ (z : Sd s.tris) (u : Tri), (∀ i, s.tris[z.1].v i = u.v i + 3) → z.a = u.v z.2 + 3 ∧ z.b = u.v (z.2 + 1) + 3 := by
    intro z u hv
    unfold Sd.a Sd.b Sd.tri
    exact ⟨hv _, hv _⟩
  have nn : ∀ (z : Sd s.tris) (j : Nat) (u : Tri), old[j]? = some z.1.1 → d.tris[j]? = some u → ∀ j', u.n z.2 = some j' ↔ ∃ k', old[j']? = some k' ∧ z.n = some k' := by
    intro z j u ho hu j'
    exact ((E.across j _ _ u ho (List.getElem?_eq_getElem z.1.2) hu) z.2).1 j'
  have lv : ∀ z : Sd s.tris, S z.1 → (edge z.a z.b ∈ fixed ↔ Leaves S z) := fun z hz => by
    have := O.leaves_iff T (z := z) (inner _ hz)
    rw [← hS] at this; exact this
  have nofix : ∀ z : Sd s.tris, S z.1 → edge z.a z.b ∉ fixed → ∃ k' : Fin s.tris.length, z.n = some k'.1 ∧ S k' := by
    intro z hz hn
    rw [lv z hz] at hn
    have : ∃ k, z.n = some k ∧ S k := by
      by_contra hc
      push Not at hc
      exact hn ⟨hz, hc⟩
    obtain ⟨k, h1, h2⟩ := this
    obtain ⟨y, rfl, -⟩ := T.mutual.mate z h1
    exact ⟨y.1, h1, h2⟩
  obtain ⟨k1, hk1, hi1⟩ := O.inside h T hf
  have bd := O.border T closed inner hk1 ((hS' k1).2 hi1)
  refine ⟨⟨?_, ?_, ?_, ?_, ?_, ?_⟩, ?_⟩
  · intro u hu i
    have := E.vertices u hu i
    show u.v i < n
    omega
  · intro u hu i
    obtain ⟨j, hj⟩ := List.mem_iff_getElem?.1 hu
    obtain ⟨k, -, -, hv⟩ := back j u hj
    have := Sd.ne T ((k, i) : Sd s.tris)
    obtain ⟨e1, e2⟩ := za (k, i) u hv
    simp only at e1 e2 ⊢
    omega
  · intro j j' u u' i i' hu hu' e1 e2
    obtain ⟨k, o, -, hv⟩ := back j u hu
    obtain ⟨k', o', -, hv'⟩ := back j' u' hu'
    obtain ⟨a1, a2⟩ := za (k, i) u hv
    obtain ⟨b1, b2⟩ := za (k', i') u' hv'
    simp only at a1 a2 b1 b2 e1 e2
    have := T.unique (x := (k, i)) (y := (k', i')) (by omega) (by omega)
    obtain ⟨rfl, rfl⟩ := Prod.mk.inj this
    exact ⟨oinj o o', rfl⟩
  · -- the direction
    have key : ∀ u ∈ d.tris, ∀ i, edge (u.v i) (u.v (i + 1)) ∈ d.fixed → ∃ x : Sd s.tris, Leaves S x ∧ x.a = u.v i + 3 ∧ x.b = u.v (i + 1) + 3 := by
      intro u hu i he
      obtain ⟨j, hj⟩ := List.mem_iff_getElem?.1 hu
      obtain ⟨k, -, hs, hv⟩ := back j u hj
      exact ⟨(k, i), (lv (k, i) hs).1 ((fixd (k, i) u hv).1 he), za (k, i) u hv⟩
    rcases bd with bd | bd
    · refine ⟨true, fun u hu i he => ?_⟩
      obtain ⟨q, hq, e1, e2⟩ := (bd _ _).1 (key u hu i he)
      simp only [if_true]
      rw [show u.v i = q by omega]; omega
    · refine ⟨false, fun u hu i he => ?_⟩
      obtain ⟨q, hq, e1, e2⟩ := (bd _ _).1 (key u hu i he)
      simp only [Bool.false_eq_true, if_false]
      rw [show u.v (i + 1) = q by omega]; omega
  · intro i hi
    have key : ∀ a b, (∃ x : Sd s.tris, Leaves S x ∧ x.a = a + 3 ∧ x.b = b + 3) → ∃ u ∈ d.tris, ∃ j, edge (u.v j) (u.v (j + 1)) ∈ d.fixed ∧ u.v j = a ∧ u.v (j + 1) = b := by
      rintro a b ⟨x, hx, h1, h2⟩
      obtain ⟨j, u, -, hu, hv⟩ := forth x.1 hx.1
      obtain ⟨e1, e2⟩ := za x u hv
      exact ⟨u, List.mem_of_getElem? hu, x.2, (fixd x u hv).2 ((lv x hx.1).2 hx), by omega, by omega⟩
    rcases bd with bd | bd
    · obtain ⟨u, hu, j, h1, h2, h3⟩ := key i ((i + 1) % n) ((bd _ _).2 ⟨i, hi, rfl, rfl⟩)
      exact ⟨u, hu, j, h1, .inl ⟨h2, h3⟩⟩
    · obtain ⟨u, hu, j, h1, h2, h3⟩ := key ((i + 1) % n) i ((bd _ _).2 ⟨i, hi, rfl, rfl⟩)
      exact ⟨u, hu, j, h1, .inr ⟨h3, h2⟩⟩
  · intro j u i hu he
    obtain ⟨k, o, hs, hv⟩ := back j u hu
    rw [fixd (k, i) u hv] at he
    obtain ⟨k', h1, h2⟩ := nofix (k, i) hs he
    obtain ⟨y, hy, ya, yb, -⟩ := T.mutual.mate (k, i) h1
    have ey : y.1 = k' := Fin.ext hy
    obtain ⟨j', u', o', hu', hv'⟩ := forth k' h2
    obtain ⟨a1, a2⟩ := za (k, i) u hv
    obtain ⟨b1, b2⟩ := za y u' (by subst ey; exact hv')
    simp only at a1 a2
    exact ⟨j', u', y.2, (nn (k, i) j u o hu j').2 ⟨k', o', h1⟩, hu', by omega, by omega⟩
  · intro i0 hi0
    obtain ⟨x, p, rank, R, ex⟩ := O.tree h T hf hi0
    rw [← hS] at R
    obtain ⟨r, ur, hor, hur, hvr⟩ := forth x.1 R.root.1
    have par : ∀ j : Nat, ∃ j' : Nat, ∀ k : Fin s.tris.length, old[j]? = some k.1 → j ≠ r → ∃ k' : Fin s.tris.length, Sd.n ((k, p k) : Sd s.tris) = some k'.1 ∧ old[j']? = some k'.1 ∧ rank k' < rank k := by
      intro j
      by_cases hc : ∃ k : Fin s.tris.length, old[j]? = some k.1 ∧ j ≠ r
      · obtain ⟨k, o, hr⟩ := hc
        obtain ⟨k', e1, e2, e3⟩ := R.up k (oS o) (by rintro rfl; exact hr (oinj o hor))
        obtain ⟨y, rfl, -⟩ := T.mutual.mate _ e1
        obtain ⟨j', u', o', -⟩ := forth y.1 e3
        refine ⟨j', fun k2 o2 _ => ?_⟩
        have : k2 = k := Fin.ext (Option.some.inj (o2.symm.trans o))
        subst this
        exact ⟨y.1, e1, o', e2⟩
      · exact ⟨0, fun k o hr => absurd ⟨k, o, hr⟩ hc⟩
    choose p' hp' using par
    refine ⟨r, p', fun j => rank (old.getD j 0), ⟨?_, ?_, ?_, ?_⟩, ur, x.2, hur, ?_⟩
    · exact (List.getElem?_eq_some_iff.1 hur).1
    · intro j hj hr
      have hu := List.getElem?_eq_getElem hj
      obtain ⟨k, o, hs, hv⟩ := back j _ hu
      obtain ⟨k', e1, e2, e3⟩ := hp' j k o hr
      obtain ⟨y, hy, ya, yb, yn⟩ := T.mutual.mate _ e1
      have ey : y.1 = k' := Fin.ext hy
      obtain ⟨j', u', o', hu', hv'⟩ := forth k' (oS e2)
      obtain rfl := oinj e2 o'
      refine ⟨⟨u', y.2, hu', (nn y (p' j) u' (by subst ey; exact e2) hu' j).2 ⟨k, o, yn⟩, ?_⟩, ?_⟩
      · rw [fixd y u' (by subst ey; exact hv'), lv y (by subst ey; exact oS e2)]
        exact fun hl => hl.2 _ yn hs
      · rw [List.getD_eq_getElem?_getD, List.getD_eq_getElem?_getD, e2, o]; exact e3
    · rintro j j' ⟨u, i, hu, hn, he⟩
      obtain ⟨k, o, hs, hv⟩ := back j u hu
      obtain ⟨k', o', zn⟩ := (nn (k, i) j u o hu j').1 hn
      have hs' := oS o'
      obtain ⟨y, hy, ya, yb, yn⟩ := T.mutual.mate _ zn
      have hj' : j' < d.tris.length := by rw [E.len]; exact (List.getElem?_eq_some_iff.1 o').1
      refine ⟨hj', ?_⟩
      rw [fixd (k, i) u hv] at he
      obtain ⟨m, ⟨m1, m2⟩ | ⟨m1, m2⟩⟩ := R.only (k, i) hs he
      · right
        have := T.unique (x := (m, p m)) (y := (k, i)) m1 m2
        obtain ⟨rfl, hpi⟩ := Prod.mk.inj this
        have hr : j ≠ r := by
          rintro rfl
          have ek : m = x.1 := Fin.ext (Option.some.inj (o.symm.trans hor))
          subst ek
          rw [R.side] at hpi
          have : ((x.1, i) : Sd s.tris) = x := by rw [← hpi]
          rw [this] at zn
          exact R.root.2 _ zn hs'
        refine ⟨hr, ?_⟩
        obtain ⟨k2, e1, e2, -⟩ := hp' j m o hr
        rw [hpi] at e1
        have : k' = k2.1 := Option.some.inj (zn.symm.trans e1)
        rw [this] at o'
        exact oinj e2 o'
      · left
        have := T.unique (x := (m, p m)) (y := y) (m1.trans ya.symm) (m2.trans yb.symm)
        subst this
        have em : m.1 = k' := hy
        have hr : j' ≠ r := by
          rintro rfl
          have ek : m = x.1 := Fin.ext (em.trans (Option.some.inj (o'.symm.trans hor)))
          subst ek
          rw [R.side] at yn
          exact R.root.2 _ yn hs
        refine ⟨hr, ?_⟩
        obtain ⟨k2, e1, e2, -⟩ := hp' j' m (by rw [em]; exact o') hr
        have : k2.1 = k.1 := Option.some.inj (e1.symm.trans yn)
        rw [this] at e2
        exact oinj e2 o
    · intro j j' u i i' hu h1 h2
      obtain ⟨k, o, hs, hv⟩ := back j u hu
      obtain ⟨k', o', zn⟩ := (nn (k, i) j u o hu j').1 h1
      obtain ⟨k2, o2, zn2⟩ := (nn (k, i') j u o hu j').1 h2
      have : k' = k2 := Option.some.inj (o'.symm.trans o2)
      subst this
      exact (Prod.mk.inj (T.mutual.same (x := (k, i)) (y := (k, i')) rfl zn zn2)).2
    · obtain ⟨e1, e2⟩ := za x ur hvr
      rw [e1, e2] at ex
      exact (edge_add _ _ ⟨_, rfl⟩ _ _).1 ex

/-- The numbers the other way round. -/
theorem Disk.flip {n : Nat} {ts : List Tri} {fixed : List (Nat × Nat)} (three : 3 ≤ n) (D : Disk n ts fixed (fun v => v)) (flipped : Bool) : Disk n ts fixed (faceVertex n flipped) := by
  cases flipped with
  | false => exact D
  | true =>
    have g : ∀ v, faceVertex n true v = n - 1 - v := fun v => rfl
    have q : ∀ a b, a < n → b < n → (b = (a + 1) % n ↔ n - 1 - a = (n - 1 - b + 1) % n) := by
      intro a b ha hb
      by_cases h1 : a + 1 = n
      · rw [h1, Nat.mod_self]
        by_cases h2 : b = 0
        · rw [h2, show n - 1 - 0 + 1 = n by omega, Nat.mod_self]; omega
        · rw [Nat.mod_eq_of_lt (by omega)]; omega
      · rw [Nat.mod_eq_of_lt (by omega : a + 1 < n)]
        by_cases h2 : b = 0
        · rw [h2, show n - 1 - 0 + 1 = n by omega, Nat.mod_self]; omega
        · rw [Nat.mod_eq_of_lt (by omega : n - 1 - b + 1 < n)]; omega
    have mem : ∀ {k : Nat} {t : Tri}, ts[k]? = some t → ∀ i, t.v i < n := fun e i => D.bound _ (List.mem_of_getElem? e) i
    refine ⟨?_, ?_, ?_, ?_, ?_, D.mate⟩
    · intro t ht i; rw [g]; omega
    · intro t ht i
      have a := D.bound t ht i
      have b := D.bound t ht (i + 1)
      have c := D.ne t ht i
      simp only [g] at a b c ⊢; omega
    · intro k k' t t' i j e e' h1 h2
      have a := mem e i; have b := mem e (i + 1); have a' := mem e' j; have b' := mem e' (j + 1)
      rw [g, g] at h1 h2
      exact D.uniq k k' t t' i j e e' (by omega) (by omega)
    · obtain ⟨fwd, hr⟩ := D.rim
      refine ⟨!fwd, fun t ht i he => ?_⟩
      have a := D.bound t ht i
      have b := D.bound t ht (i + 1)
      have := hr t ht i he
      cases fwd with
      | true =>
        simp only [if_true, Bool.not_true, Bool.false_eq_true, if_false, g] at this ⊢
        exact (q _ _ a b).1 this
      | false =>
        simp only [Bool.not_false, if_true, Bool.false_eq_true, if_false, g] at this ⊢
        exact (q _ _ b a).1 this
    · intro i hi
      have hm := Nat.mod_lt (i + 1) (show 0 < n by omega)
      obtain ⟨t, ht, j, h1, h2⟩ := D.all (n - 1 - (i + 1) % n) (by omega)
      refine ⟨t, ht, j, h1, ?_⟩
      have e : (n - 1 - (i + 1) % n + 1) % n = n - 1 - i := ((q i ((i + 1) % n) hi hm).1 rfl).symm
      rw [e] at h2
      have a := D.bound t ht j
      have b := D.bound t ht (j + 1)
      rw [g, g]

      omega

end Mcut.Cdt
