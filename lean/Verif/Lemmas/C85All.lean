import Verif.Lemmas.C85Enforce

/-! # Lemmas for C85: inserting all vertices -/
namespace Mcut.Cdt
open Mcut.Geom
variable {K : Type} [Field K] [LinearOrder K] [IsStrictOrderedRing K]

theorem Placed.new {pos : Nat → V2 K} {M : Nat} (h : Placed pos M) {N u : Nat} (h3 : 3 ≤ N) (hN : N < M) (hu : u < N) : pos N ≠ pos u := by
  intro e
  have z : ∀ a b : V2 K, orient2d a b a = 0 ∧ orient2d a b b = 0 := by intro a b; constructor <;> unfold orient2d <;> ring
  by_cases hu3 : 3 ≤ u
  · have := h.distinct N u h3 hu3 hN (by omega) e; omega
  · obtain ⟨h1, h2, h3⟩ := h.inside N h3 hN
    rw [e] at h1 h2 h3
    rcases (by omega : u = 0 ∨ u = 1 ∨ u = 2) with rfl | rfl | rfl
    · rw [(z _ _).1] at h1; exact lt_irrefl _ h1
    · rw [(z _ _).2] at h1; exact lt_irrefl _ h1
    · rw [(z _ _).2] at h2; exact lt_irrefl _ h2

theorem not_right {p a b : V2 K} : sideOf p a b ≠ .right ↔ 0 ≤ orient2d p a b := by
  unfold sideOf
  by_cases h : orient2d p a b < 0
  · rw [if_pos h]; simp [h]
  · rw [if_neg h]; simp only [not_lt.1 h, iff_true]; split <;> simp

theorem is_on {p a b : V2 K} (h : sideOf p a b = .on) : orient2d p a b = 0 := by
  unfold sideOf at h
  split at h
  · cases h
  · split at h
    · cases h
    · exact le_antisymm (by linarith) (by linarith)

theorem pos_of {p a b : V2 K} (h : sideOf p a b ≠ .right) (h' : sideOf p a b ≠ .on) : 0 < orient2d p a b := by
  unfold sideOf at h h'
  split at h
  · exact absurd rfl h
  · rename_i hn
    rw [if_neg hn] at h'
    split at h'
    · assumption
    · exact absurd rfl h'

/-- What the location says. -/
theorem locate_cases {p : V2 K} {x : Fin 3 → V2 K} (h : InClosed p (x 0) (x 1) (x 2)) :
    (locate p (x 0) (x 1) (x 2) = .inside ∧ InOpen p (x 0) (x 1) (x 2)) ∨
    ∃ i, locate p (x 0) (x 1) (x 2) = .edge i ∧ orient2d p (x i) (x (i + 1)) = 0 ∧ 0 ≤ orient2d p (x (i + 1)) (x (i + 2)) ∧ 0 ≤ orient2d p (x (i + 2)) (x i) := by
  obtain ⟨h1, h2, h3⟩ := h
  rw [← orient_rot2] at h1 h2 h3
  have n1 := not_right.2 h1
  have n2 := not_right.2 h2
  have n3 := not_right.2 h3
  unfold locate
  rw [if_neg n1, if_neg n2, if_neg n3]
  by_cases z3 : sideOf p (x 2) (x 0) = .on
  · rw [if_pos z3]; right; exact ⟨2, rfl, is_on z3, h1, h2⟩
  · rw [if_neg z3]
    by_cases z2 : sideOf p (x 1) (x 2) = .on
    · rw [if_pos z2]; right; exact ⟨1, rfl, is_on z2, h3, h1⟩
    · rw [if_neg z2]
      by_cases z1 : sideOf p (x 0) (x 1) = .on
      · rw [if_pos z1]; right; exact ⟨0, rfl, is_on z1, h2, h3⟩
      · rw [if_neg z1]; left
        refine ⟨rfl, ?_, ?_, ?_⟩
        · rw [← orient_rot2]; exact pos_of n1 z1
        · rw [← orient_rot2]; exact pos_of n2 z2
        · rw [← orient_rot2]; exact pos_of n3 z3

theorem locate_outside {p a b c : V2 K} (h : ¬InClosed p a b c) : locate p a b c = .outside := by
  unfold locate
  by_cases h1 : sideOf p a b = .right
  · rw [if_pos h1]
  · rw [if_neg h1]
    by_cases h2 : sideOf p b c = .right
    · rw [if_pos h2]
    · rw [if_neg h2]
      by_cases h3 : sideOf p c a = .right
      · rw [if_pos h3]
      · exfalso; apply h
        refine ⟨?_, ?_, ?_⟩
        · rw [← orient_rot2]; exact not_right.1 h1
        · rw [← orient_rot2]; exact not_right.1 h2
        · rw [← orient_rot2]; exact not_right.1 h3

theorem insertVertex_good {pos : Nat → V2 K} {M N : Nat} (h : Placed pos M) (hN : N < M) {s : St} (g : Good pos N s) (hl : N < s.vt.length) {k : Nat} (ha : Arrives pos s N k) :
    ∃ s', insertVertex pos k s N = some s' ∧ Good pos (N + 1) s' ∧ s'.vt.length = s.vt.length := by
  obtain ⟨t, e, hc⟩ := ha
  have m := g.both
  have h3 := g.three
  have fin : ∀ {s1 : St} {stack : List Nat}, Good pos (N + 1) s1 → (∀ x ∈ stack, Corner s1.tris x N) → stack.length ≤ 4 → s1.vt.length = s.vt.length →
      ∃ s', enforce pos (2 * s1.tris.length + 4) s1 N stack = some s' ∧ Good pos (N + 1) s' ∧ s'.vt.length = s.vt.length := by
    intro s1 stack g1 hs hlen hvt
    have := ind_bound N s1.tris
    obtain ⟨s', h1, h2, h3⟩ := enforce_good h h3 (Nat.lt_succ_self N) (by omega : N + 1 ≤ M) (2 * s1.tris.length + 4) s1 stack g1 hs (by push_cast; omega)
    exact ⟨s', h1, h2, h3.trans hvt⟩
  unfold insertVertex
  rw [e, Option.bind_some]
  rcases locate_cases (x := fun i => pos (t.v i)) hc with ⟨hin, c0, c1, c2⟩ | ⟨i, hed, z, p1, p2⟩
  · rw [show locate (pos N) (pos (t.v 0)) (pos (t.v 1)) (pos (t.v 2)) = .inside from hin]
    dsimp only
    obtain ⟨s1, e1, g1, v1, cs⟩ := insertIn_good g e hl c0 c1 c2
    rw [e1, Option.bind_some]
    exact fin g1 cs (by simp) v1
  · rw [show locate (pos N) (pos (t.v 0)) (pos (t.v 1)) (pos (t.v 2)) = .edge i from hed]
    dsimp only
    have ct := ccw_at (m.ccw_get e) i
    have lt : ∀ l, t.v l < N := fun l => g.lt k _ ⟨t, l, e, rfl⟩
    -- not at a corner
    have q1 : 0 < orient2d (pos N) (pos (t.v (i + 1))) (pos (t.v (i + 2))) := by
      refine lt_of_le_of_ne p1 (fun hz => h.new h3 hN (lt (i + 1)) ?_)
      exact two_edges (a := pos (t.v (i + 2))) (b := pos (t.v i)) (by rw [orient_rot2]; exact ct) hz.symm z
    have q2 : 0 < orient2d (pos N) (pos (t.v (i + 2))) (pos (t.v i)) := by
      refine lt_of_le_of_ne p2 (fun hz => h.new h3 hN (lt i) ?_)
      exact two_edges (a := pos (t.v (i + 1))) (b := pos (t.v (i + 2))) (by rw [orient_rot]; exact ct) z hz.symm
    rw [← orient_rot] at q1 q2
    cases hn : t.n i with
    | none =>
      exfalso
      obtain ⟨i1, i2, i3⟩ := h.inside N h3 hN
      rw [orient_rot2] at z
      rcases g.border k (t.v i) (t.v (i + 1)) ⟨t, e, i, rfl, rfl, hn⟩ with ⟨r1, r2⟩ | ⟨r1, r2⟩ | ⟨r1, r2⟩
      · rw [r1, r2] at z; rw [z] at i1; exact lt_irrefl _ i1
      · rw [r1, r2] at z; rw [z] at i2; exact lt_irrefl _ i2
      · rw [r1, r2] at z; rw [z] at i3; exact lt_irrefl _ i3
    | some k' =>
      dsimp only
      obtain ⟨t', j, e', hj, hv, hv'⟩ := m.other e hn
      have ct' := ccw_at (m.ccw_get e') j
      rw [hv, hv', ← orient_rot2] at ct'
      obtain ⟨d1, d2⟩ := on_edge (a := pos (t.v (i + 2))) (b := pos (t.v i)) (c := pos (t.v (i + 1))) (d := pos (t'.v (j + 2))) (p := pos N) (by rw [orient_rot2]; exact ct) ct' z q2 q1
      obtain ⟨s1, e1, g1, v1, cs⟩ := insertOn_good g e e' hn hj hv hv' hl q2 q1 d1 d2
      rw [e1, Option.bind_some]
      exact fin g1 cs (by simp) v1

theorem insertVertex_lost {pos : Nat → V2 K} {N : Nat} {s : St} {k : Nat} (ha : ¬Arrives pos s N k) : insertVertex pos k s N = none := by
  unfold insertVertex
  cases e : s.tris[k]? with
  | none => rfl
  | some t =>
    rw [Option.bind_some, show locate (pos N) (pos (t.v 0)) (pos (t.v 1)) (pos (t.v 2)) = .outside from locate_outside (fun hc => ha ⟨t, e, hc⟩)]
    rfl

/-! ## The beginning -/

theorem start_good {pos : Nat → V2 K} {M n : Nat} (h : Placed pos M) : Good pos 3 (start n) := by
  have hc : ∀ k v, Corner (start n).tris k v ↔ k = 0 ∧ v < 3 := by
    intro k v
    cases k with
    | zero =>
      rw [corner_mk (ts := (start n).tris) (p := 0) (q := 1) (r := 2) rfl]
      omega
    | succ k =>
      constructor
      · intro h; have := h.index; simp [start] at this
      · rintro ⟨h, -⟩; omega
  have hn : ∀ k a b m, Has (start n).tris k a b m → m = none ∧ Rim a b := by
    intro k a b m hh
    have := hh.index
    simp only [start, List.length_cons, List.length_nil] at this
    have hk : k = 0 := by omega
    subst hk
    obtain ⟨t, e, i, h1, h2, h3⟩ := hh
    cases Option.some.inj e
    refine ⟨h3.symm, ?_⟩
    rw [← h1, ← h2]
    fin_cases i
    · exact .inl ⟨rfl, rfl⟩
    · exact .inr (.inl ⟨rfl, rfl⟩)
    · exact .inr (.inr ⟨rfl, rfl⟩)
  refine ⟨⟨?_, ?_⟩, ?_, ?_, ?_, ?_, ?_, by omega, rfl, ?_⟩
  · intro t ht
    simp only [start, List.mem_singleton] at ht
    subst ht
    exact h.ccw
  · intro k k' a b hh; exact absurd (hn _ _ _ _ hh).1 (by simp)
  · intro k v hv; exact ((hc k v).1 hv).2
  · intro k a b hh; exact (hn _ _ _ _ hh).2
  · intro v l hl
    show l.Nodup ∧ ∀ k, k ∈ l ↔ Corner (start n).tris k v
    simp only [hc]
    simp only [start] at hl
    by_cases hv : v < 3
    · rw [List.getElem?_append_left (by simpa using hv)] at hl
      have : l = [0] := by
        rcases (by omega : v = 0 ∨ v = 1 ∨ v = 2) with rfl | rfl | rfl <;> exact (Option.some.inj hl).symm
      subst this
      exact ⟨List.nodup_singleton _, fun k => by simp [hv]⟩
    · rw [List.getElem?_append_right (by simp; omega)] at hl
      have := List.mem_of_getElem? hl
      have := (List.mem_replicate.1 this).2
      subst this
      exact ⟨List.nodup_nil, fun k => by simp [hv]⟩
  · simp [start]
  · intro q; simp only [start, total, tw, List.map_cons, List.map_nil, List.sum_cons, List.sum_nil, add_zero]; rfl
  · intro v hv; exact ⟨0, (hc 0 v).2 ⟨rfl, hv⟩⟩

/-! ## What the invariant says -/

theorem total_two {f : (Fin 3 → Nat) → Int} : ∀ (ts : List Tri) (k k' : Nat) (t t' : Tri), (∀ u ∈ ts, 0 ≤ f u.v) → ts[k]? = some t → ts[k']? = some t' → k ≠ k' → f t.v + f t'.v ≤ total f ts := by
  have one : ∀ (ts : List Tri) (k : Nat) (t : Tri), (∀ u ∈ ts, 0 ≤ f u.v) → ts[k]? = some t → f t.v ≤ total f ts := by
    intro ts
    induction ts with
    | nil => intro k t _ h; simp at h
    | cons x ts ih =>
      intro k t hn h
      have h0 := hn x (List.mem_cons_self ..)
      have hn' : ∀ u ∈ ts, 0 ≤ f u.v := fun u hu => hn u (List.mem_cons_of_mem _ hu)
      have hs : 0 ≤ total f ts := by
        unfold total
        apply List.sum_nonneg
        intro y hy
        simp only [List.mem_map, exists_exists_and_eq_and] at hy
        obtain ⟨u, hu, rfl⟩ := hy
        exact hn' u hu
      have e : total f (x :: ts) = f x.v + total f ts := by simp [total]
      rw [e]
      cases k with
      | zero => simp only [List.getElem?_cons_zero, Option.some.injEq] at h; subst h; omega
      | succ k => have := ih k t hn' (by simpa using h); omega
  intro ts
  induction ts with
  | nil => intro k k' t t' _ h; simp at h
  | cons x ts ih =>
    intro k k' t t' hn h h' hk
    have h0 := hn x (List.mem_cons_self ..)
    have hn' : ∀ u ∈ ts, 0 ≤ f u.v := fun u hu => hn u (List.mem_cons_of_mem _ hu)
    have e : total f (x :: ts) = f x.v + total f ts := by simp [total]
    rw [e]
    cases k with
    | zero =>
      simp only [List.getElem?_cons_zero, Option.some.injEq] at h; subst h
      cases k' with
      | zero => exact absurd rfl hk
      | succ k' => have := one ts k' t' hn' (by simpa using h'); omega
    | succ k =>
      cases k' with
      | zero =>
        simp only [List.getElem?_cons_zero, Option.some.injEq] at h'; subst h'
        have := one ts k t hn' (by simpa using h); omega
      | succ k' => have := ih k k' t t' hn' (by simpa using h) (by simpa using h') (by omega); omega

theorem total_zero {f : (Fin 3 → Nat) → Int} {ts : List Tri} (h : ∀ u ∈ ts, f u.v = 0) : total f ts = 0 := by
  unfold total
  induction ts with
  | nil => rfl
  | cons x ts ih =>
    simp only [List.map_cons, List.sum_cons]
    rw [h x (List.mem_cons_self ..), ih (fun u hu => h u (List.mem_cons_of_mem _ hu))]; rfl

theorem Good.triangulation {pos : Nat → V2 K} {M N : Nat} (h : Placed pos M) (hN : N ≤ M) {s : St} (g : Good pos N s) : Triangulation pos N s := by
  have m := g.both
  have nn : ∀ q, ∀ u ∈ s.tris, 0 ≤ tw pos q u.v := fun q u hu => (wind_bound (m.ccw u hu)).1
  refine ⟨m.ccw, ?_, g.count, ?_, ?_, ?_, ?_, ?_, g.len, ?_⟩
  · intro v
    constructor
    · intro hv
      obtain ⟨k, t, i, e, hi⟩ := g.used v hv
      exact ⟨t, List.mem_of_getElem? e, i, hi⟩
    · rintro ⟨t, ht, i, hi⟩
      obtain ⟨k, e⟩ := List.mem_iff_getElem?.1 ht
      exact g.lt k v ⟨t, i, e, hi⟩
  · intro q k k' t t' e e' ho ho'
    by_contra hk
    have := total_two (f := tw pos q) s.tris k k' t t' (nn q) e e' hk
    rw [g.around] at this
    have w1 : tw pos q t.v = 1 := (wind_spec (m.ccw_get e)).1 ho.1 ho.2.1 ho.2.2
    have w2 : tw pos q t'.v = 1 := (wind_spec (m.ccw_get e')).1 ho'.1 ho'.2.1 ho'.2.2
    have := (wind_bound (q := q) h.ccw).2
    omega
  · intro q ho
    by_contra hno
    have hz := total_zero (f := tw pos q) (ts := s.tris) (fun u hu => (wind_spec (m.ccw u hu)).2 (fun hc => hno ⟨u, hu, hc⟩))
    rw [g.around, (wind_spec h.ccw).1 ho.1 ho.2.1 ho.2.2] at hz
    omega
  · intro q t ht ho
    by_contra hno
    obtain ⟨k, e⟩ := List.mem_iff_getElem?.1 ht
    have w1 : tw pos q t.v = 1 := (wind_spec (m.ccw_get e)).1 ho.1 ho.2.1 ho.2.2
    have hz : total (tw pos q) s.tris = 0 := by rw [g.around]; exact (wind_spec h.ccw).2 hno
    have := total_set (tw pos q) s.tris k t ⟨fun _ => 0, t.n⟩ e
    have z0 : tw pos q (fun _ => 0) = 0 := by
      have hz : cross q (pos 0) (pos 0) = 0 := by
        have := cross_swap q (pos 0) (pos 0)
        omega
      unfold tw wind
      rw [hz]; rfl
    have hs : 0 ≤ total (tw pos q) (s.tris.set k ⟨fun _ => 0, t.n⟩) := by
      unfold total
      apply List.sum_nonneg
      intro y hy
      simp only [List.mem_map, exists_exists_and_eq_and] at hy
      obtain ⟨u, hu, rfl⟩ := hy
      rcases List.mem_or_eq_of_mem_set hu with hu | rfl
      · exact nn q u hu
      · show 0 ≤ tw pos q (fun _ => 0); omega
    dsimp only at this
    omega
  · intro k k' t i e hn; exact m.other e hn
  · intro k t i e
    constructor
    · intro hn
      have := g.border k (t.v i) (t.v (i + 1)) ⟨t, e, i, rfl, rfl, hn⟩
      simp only [List.mem_cons, Prod.mk.injEq, List.not_mem_nil, or_false]
      exact this
    · intro hr
      simp only [List.mem_cons, Prod.mk.injEq, List.not_mem_nil, or_false] at hr
      cases hn : t.n i with
      | none => rfl
      | some k' =>
        exfalso
        obtain ⟨t', j, e', hj, hv, hv'⟩ := m.other e hn
        have ct' := ccw_at (m.ccw_get e') j
        have hx := h.closed (lt_of_lt_of_le (g.lt k' _ ⟨t', j + 2, e', rfl⟩) hN)
        rw [hv, hv', orient_swap] at ct'
        rcases hr with ⟨r1, r2⟩ | ⟨r1, r2⟩ | ⟨r1, r2⟩
        · rw [r1, r2] at ct'; linarith [hx.1]
        · rw [r1, r2] at ct'; linarith [hx.2.1]
        · rw [r1, r2] at ct'; linarith [hx.2.2]
  · intro v l hl; exact g.listed v l hl

/-! ## All vertices -/

theorem insertFirst_succ (pos : Nat → V2 K) (walk : St → Nat → Nat) (n m : Nat) :
    insertFirst pos walk n (m + 1) = (insertFirst pos walk n m).bind (fun s => insertVertex pos (walk s (3 + m)) s (3 + m)) := by
  unfold insertFirst
  rw [List.range_succ, List.foldlM_append]
  cases h : List.foldlM (fun s i => insertVertex pos (walk s (3 + i)) s (3 + i)) (start n) (List.range m) with
  | none => rfl
  | some s => simp [List.foldlM_cons, List.foldlM_nil]

theorem insertFirst_good {pos : Nat → V2 K} {n : Nat} (h : Placed pos (3 + n)) (walk : St → Nat → Nat) : ∀ m, m ≤ n →
    (∃ s, insertFirst pos walk n m = some s ∧ Good pos (3 + m) s ∧ s.vt.length = 3 + n) ∨
    (insertFirst pos walk n m = none ∧ ∃ m' s, m' < m ∧ insertFirst pos walk n m' = some s ∧ Good pos (3 + m') s ∧ ¬Arrives pos s (3 + m') (walk s (3 + m'))) := by
  intro m
  induction m with
  | zero => intro _; left; exact ⟨start n, rfl, start_good h, by simp [start]; omega⟩
  | succ m ih =>
    intro hm
    rcases ih (by omega) with ⟨s, e, g, hl⟩ | ⟨e, m', s, hm', e', g, ha⟩
    · rw [insertFirst_succ, e, Option.bind_some]
      by_cases ha : Arrives pos s (3 + m) (walk s (3 + m))
      · obtain ⟨s', e', g', hl'⟩ := insertVertex_good h (by omega) g (by omega) ha
        left; exact ⟨s', e', g', hl'.trans hl⟩
      · right; exact ⟨insertVertex_lost ha, m, s, by omega, e, g, ha⟩
    · right
      refine ⟨by rw [insertFirst_succ, e]; rfl, m', s, by omega, e', g, ha⟩

end Mcut.Cdt
