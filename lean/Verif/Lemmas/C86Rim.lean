import Verif.Lemmas.C86Sum
import Verif.Lemmas.C86Grow
import Verif.Lemmas.C85Enforce
import Mathlib.Algebra.Order.BigOperators.Group.Finset
import Mathlib.Tactic.FieldSimp

/-! # All triangles at the corners of the super-triangle are outside -/
namespace Mcut.Cdt
open Mcut.Geom
variable {K : Type} [Field K] [LinearOrder K] [IsStrictOrderedRing K]
variable {pos : Nat → V2 K} {N : Nat} {s : St}

theorem Triangulation.mutual (T : Triangulation pos N s) : Mutual pos s.tris := by
  refine ⟨T.ccw, ?_⟩
  rintro k k' a b ⟨t, e, i, rfl, rfl, hn⟩
  obtain ⟨t', j, e', h1, h2, h3⟩ := T.neighbours k k' t i e hn
  exact ⟨t', e', j, h2, h3, h1⟩

theorem small {A : K} (h : 0 < A) (B : K) : ∃ δ, 0 < δ ∧ ∀ ε, 0 < ε → ε ≤ δ → 0 < A + ε * B := by
  refine ⟨A / (2 * (|B| + 1)), by positivity, ?_⟩
  intro ε h0 h1
  have hb : 0 < 2 * (|B| + 1) := by positivity
  have h2 : ε * (2 * (|B| + 1)) ≤ A := by rwa [le_div_iff₀ hb] at h1
  have h3 : -|B| ≤ B := neg_abs_le B
  nlinarith [mul_le_mul_of_nonneg_left h3 h0.le, abs_nonneg B, mul_nonneg h0.le (abs_nonneg B)]

/-- Two triangles on the same side of an edge have a common point inside. -/
theorem overlap {a b c d : V2 K} (h1 : 0 < orient2d a b c) (h2 : 0 < orient2d a b d) : ∃ q, InOpen q a b c ∧ InOpen q a b d := by
  obtain ⟨m, hm⟩ : ∃ m : V2 K, m = ⟨(a.x + b.x) / 2, (a.y + b.y) / 2⟩ := ⟨_, rfl⟩
  obtain ⟨w, hw⟩ : ∃ w : V2 K, w = ⟨c.x + d.x - 2 * m.x, c.y + d.y - 2 * m.y⟩ := ⟨_, rfl⟩
  have lin : ∀ (p r : V2 K) (ε : K), orient2d p r ⟨m.x + ε * w.x, m.y + ε * w.y⟩ = orient2d p r m + ε * ((r.x - p.x) * w.y - (r.y - p.y) * w.x) := by
    intro p r ε; unfold orient2d; dsimp only; ring
  have m1 : orient2d b c m = orient2d a b c / 2 := by rw [hm]; unfold orient2d; dsimp only; ring
  have m2 : orient2d c a m = orient2d a b c / 2 := by rw [hm]; unfold orient2d; dsimp only; ring
  have m3 : orient2d b d m = orient2d a b d / 2 := by rw [hm]; unfold orient2d; dsimp only; ring
  have m4 : orient2d d a m = orient2d a b d / 2 := by rw [hm]; unfold orient2d; dsimp only; ring
  obtain ⟨δ1, p1, s1⟩ := small (A := orient2d b c m) (by rw [m1]; linarith) ((c.x - b.x) * w.y - (c.y - b.y) * w.x)
  obtain ⟨δ2, p2, s2⟩ := small (A := orient2d c a m) (by rw [m2]; linarith) ((a.x - c.x) * w.y - (a.y - c.y) * w.x)
  obtain ⟨δ3, p3, s3⟩ := small (A := orient2d b d m) (by rw [m3]; linarith) ((d.x - b.x) * w.y - (d.y - b.y) * w.x)
  obtain ⟨δ4, p4, s4⟩ := small (A := orient2d d a m) (by rw [m4]; linarith) ((a.x - d.x) * w.y - (a.y - d.y) * w.x)
  obtain ⟨ε, hε⟩ : ∃ ε, ε = min (min δ1 δ2) (min δ3 δ4) := ⟨_, rfl⟩
  have e0 : 0 < ε := by rw [hε]; exact lt_min (lt_min p1 p2) (lt_min p3 p4)
  have l1 : ε ≤ δ1 := by rw [hε]; exact (min_le_left _ _).trans (min_le_left _ _)
  have l2 : ε ≤ δ2 := by rw [hε]; exact (min_le_left _ _).trans (min_le_right _ _)
  have l3 : ε ≤ δ3 := by rw [hε]; exact (min_le_right _ _).trans (min_le_left _ _)
  have l4 : ε ≤ δ4 := by rw [hε]; exact (min_le_right _ _).trans (min_le_right _ _)
  have hab : 0 < orient2d a b (⟨m.x + ε * w.x, m.y + ε * w.y⟩ : V2 K) := by
    have : orient2d a b (⟨m.x + ε * w.x, m.y + ε * w.y⟩ : V2 K) = ε * (orient2d a b c + orient2d a b d) := by
      rw [hw, hm]; unfold orient2d; dsimp only; ring
    rw [this]
    exact mul_pos e0 (by linarith)
  refine ⟨⟨m.x + ε * w.x, m.y + ε * w.y⟩, ⟨hab, ?_, ?_⟩, ⟨hab, ?_, ?_⟩⟩
  · rw [lin]; exact s1 ε e0 l1
  · rw [lin]; exact s2 ε e0 l2
  · rw [lin]; exact s3 ε e0 l3
  · rw [lin]; exact s4 ε e0 l4

theorem InOpen.rot {q a b c : V2 K} (h : InOpen q a b c) : InOpen q b c a := ⟨h.2.1, h.2.2, h.1⟩

theorem inOpen_at {t : Tri} {q : V2 K} (i : Fin 3) (h : InOpen q (pos (t.v i)) (pos (t.v (i + 1))) (pos (t.v (i + 2)))) : InOpen q (t.at pos 0) (t.at pos 1) (t.at pos 2) := by
  fin_cases i
  · exact h
  · exact h.rot.rot
  · exact h.rot

/-- There is only one triangle on each side of an edge. -/
theorem Triangulation.unique (T : Triangulation pos N s) {x y : Sd s.tris} (h1 : x.a = y.a) (h2 : x.b = y.b) : x = y := by
  have cx := ccw_at (T.mutual.ccw_get x.get) x.2
  have cy := ccw_at (T.mutual.ccw_get y.get) y.2
  have ha : y.tri.v y.2 = x.tri.v x.2 := h1.symm
  have hb : y.tri.v (y.2 + 1) = x.tri.v (x.2 + 1) := h2.symm
  rw [ha, hb] at cy
  obtain ⟨q, q1, q2⟩ := overlap cx cy
  have q2' : InOpen q (pos (y.tri.v y.2)) (pos (y.tri.v (y.2 + 1))) (pos (y.tri.v (y.2 + 2))) := by rw [ha, hb]; exact q2
  have hk := T.apart q x.1 y.1 x.tri y.tri x.get y.get (inOpen_at x.2 q1) (inOpen_at y.2 q2')
  obtain ⟨x1, x2⟩ := x
  obtain ⟨y1, y2⟩ := y
  have : x1 = y1 := Fin.ext hk
  subst this
  have d := ccw_ne (T.mutual.ccw_get (Sd.get (x1, x2))) x2
  have hv : (Sd.tri (x1, y2)).v y2 = (Sd.tri (x1, x2)).v x2 := ha
  have e : Sd.tri (x1, y2) = Sd.tri (x1, x2) := rfl
  rw [e] at hv
  have : y2 = x2 := by
    obtain ⟨u, hu⟩ : ∃ u, u = Sd.tri (x1, x2) := ⟨_, rfl⟩
    rw [← hu] at d hv
    clear e ha hb cx cy q1 q2 q2' h1 h2 hk
    fin_cases x2 <;> fin_cases y2 <;> simp_all
  rw [this]

open Classical in
/-- The boundary of a set of triangles has no ends. -/
theorem Mutual.turn {ts : List Tri} (h : Mutual pos ts) (S : Nat → Prop) {v : Nat} :
    (∃ x : Sd ts, Leaves S x ∧ x.b = v) ↔ ∃ y : Sd ts, Leaves S y ∧ y.a = v := by
  obtain ⟨φ, hφ⟩ : ∃ φ : Nat → Nat → Int, φ = fun a b => (if b = v then 1 else 0) - (if a = v then 1 else 0) := ⟨_, rfl⟩
  have c := cancel h S φ (by intro a b; rw [hφ]; dsimp only; ring)
  rw [sum_sides] at c
  have z : ∑ k : Fin ts.length with S k.1, (φ (ts[k].v 0) (ts[k].v 1) + φ (ts[k].v 1) (ts[k].v 2) + φ (ts[k].v 2) (ts[k].v 0)) = 0 := by
    apply Finset.sum_eq_zero
    intro k _
    rw [hφ]; dsimp only; ring
  rw [z] at c
  constructor
  · rintro ⟨x, hx, hb⟩
    by_contra hno
    have : 0 < ∑ x : Sd ts with Leaves S x, φ x.a x.b := by
      apply Finset.sum_pos'
      · intro y hy
        have : y.a ≠ v := fun e => hno ⟨y, (Finset.mem_filter.1 hy).2, e⟩
        rw [hφ]; dsimp only
        rw [if_neg this]
        split <;> omega
      · refine ⟨x, Finset.mem_filter.2 ⟨Finset.mem_univ _, hx⟩, ?_⟩
        have : x.a ≠ v := fun e => hno ⟨x, hx, e⟩
        rw [hφ]; dsimp only
        rw [if_neg this, if_pos hb]; omega
    omega
  · rintro ⟨x, hx, hb⟩
    by_contra hno
    have : 0 < ∑ x : Sd ts with Leaves S x, -φ x.a x.b := by
      apply Finset.sum_pos'
      · intro y hy
        have : y.b ≠ v := fun e => hno ⟨y, (Finset.mem_filter.1 hy).2, e⟩
        rw [hφ]; dsimp only
        rw [if_neg this]
        split <;> omega
      · refine ⟨x, Finset.mem_filter.2 ⟨Finset.mem_univ _, hx⟩, ?_⟩
        have : x.b ≠ v := fun e => hno ⟨x, hx, e⟩
        rw [hφ]; dsimp only
        rw [if_neg this, if_pos hb]; omega
    rw [Finset.sum_neg_distrib] at this
    omega

open Classical in
/-- The triangles of a set around a corner `c` of the super-triangle do not close up. -/
theorem Mutual.fan {ts : List Tri} (h : Mutual pos ts) (S : Nat → Prop) {c c1 c2 : Nat} (h0 : 0 < orient2d (pos c) (pos c1) (pos c2))
    (inside : ∀ k v, Corner ts k v → v ≠ c → 0 < orient2d (pos c) (pos c1) (pos v) + orient2d (pos c2) (pos c) (pos v))
    (no : ∀ x : Sd ts, Leaves S x → x.a ≠ c ∧ x.b ≠ c) {k : Nat} (hk : S k) : ¬Corner ts k c := by
  obtain ⟨e, he⟩ : ∃ e : Nat → K, e = fun v => orient2d (pos c) (pos c1) (pos v) + orient2d (pos c2) (pos c) (pos v) := ⟨_, rfl⟩
  obtain ⟨g, hg⟩ : ∃ g : Nat → K, g = fun v => orient2d (pos c) (pos c1) (pos v) / e v := ⟨_, rfl⟩
  obtain ⟨φ, hφ⟩ : ∃ φ : Nat → Nat → K, φ = fun a b => (if b = c ∧ a ≠ c then g a else 0) - (if a = c ∧ b ≠ c then g b else 0) := ⟨_, rfl⟩
  have mono : ∀ x y, 0 < e x → 0 < e y → 0 < orient2d (pos c) (pos x) (pos y) → g x < g y := by
    intro x y hx hy hp
    rw [hg]; dsimp only
    rw [div_lt_div_iff₀ hx hy]
    have : orient2d (pos c) (pos c1) (pos y) * e x - orient2d (pos c) (pos c1) (pos x) * e y = orient2d (pos c) (pos c1) (pos c2) * orient2d (pos c) (pos x) (pos y) := by
      rw [he]; dsimp only; unfold orient2d; ring
    have := mul_pos h0 hp
    linarith
  have tri : ∀ (t : Tri) (i : Fin 3), φ (t.v 0) (t.v 1) + φ (t.v 1) (t.v 2) + φ (t.v 2) (t.v 0) = φ (t.v i) (t.v (i + 1)) + φ (t.v (i + 1)) (t.v (i + 2)) + φ (t.v (i + 2)) (t.v i) := by
    intro t i
    fin_cases i
    · rfl
    · show _ = φ (t.v 1) (t.v 2) + φ (t.v 2) (t.v 0) + φ (t.v 0) (t.v 1); ring
    · show _ = φ (t.v 2) (t.v 0) + φ (t.v 0) (t.v 1) + φ (t.v 1) (t.v 2); ring
  have one : ∀ (k : Nat) (t : Tri) (i : Fin 3), ts[k]? = some t → t.v i = c → 0 < φ (t.v 0) (t.v 1) + φ (t.v 1) (t.v 2) + φ (t.v 2) (t.v 0) := by
    intro k t i et hi
    have hc := ccw_at (h.ccw_get et) i
    have d := ccw_ne (h.ccw_get et) i
    rw [tri t i]
    have n1 : t.v (i + 1) ≠ c := fun x => d.1 (hi.trans x.symm)
    have n2 : t.v (i + 2) ≠ c := fun x => d.2.2 (hi.trans x.symm)
    have i1 := inside k (t.v (i + 1)) ⟨t, i + 1, et, rfl⟩ n1
    have i2 := inside k (t.v (i + 2)) ⟨t, i + 2, et, rfl⟩ n2
    rw [hi] at hc ⊢
    have := mono (t.v (i + 1)) (t.v (i + 2)) (by rw [he]; exact i1) (by rw [he]; exact i2) hc
    have e1 : φ c (t.v (i + 1)) = -g (t.v (i + 1)) := by rw [hφ]; simp [n1]
    have e2 : φ (t.v (i + 1)) (t.v (i + 2)) = 0 := by rw [hφ]; simp [n1, n2]
    have e3 : φ (t.v (i + 2)) c = g (t.v (i + 2)) := by rw [hφ]; simp [n2]
    rw [e1, e2, e3]
    linarith
  rintro ⟨t, i, et, hi⟩
  obtain ⟨hlt, -⟩ := List.getElem?_eq_some_iff.1 et
  have cc := cancel h S φ (by intro a b; rw [hφ]; dsimp only; ring)
  have z : ∑ x : Sd ts with Leaves S x, φ x.a x.b = 0 := by
    apply Finset.sum_eq_zero
    intro x hx
    obtain ⟨n1, n2⟩ := no x (Finset.mem_filter.1 hx).2
    rw [hφ]; simp [n1, n2]
  rw [z, sum_sides] at cc
  have : 0 < ∑ k : Fin ts.length with S k.1, (φ (ts[k].v 0) (ts[k].v 1) + φ (ts[k].v 1) (ts[k].v 2) + φ (ts[k].v 2) (ts[k].v 0)) := by
    apply Finset.sum_pos'
    · intro k' _
      by_cases hcor : ∃ i, ts[k'].v i = c
      · obtain ⟨i', hi'⟩ := hcor
        exact (one k' ts[k'] i' (List.getElem?_eq_getElem k'.2) hi').le
      · have nn : ∀ i, ts[k'].v i ≠ c := fun i hi => hcor ⟨i, hi⟩
        apply le_of_eq
        rw [hφ]
        simp only [nn 0, nn 1, nn 2, false_and, if_false]
        simp
    · refine ⟨⟨k, hlt⟩, Finset.mem_filter.2 ⟨Finset.mem_univ _, hk⟩, ?_⟩
      exact one k ts[k] i (List.getElem?_eq_getElem hlt) (by rw [List.getElem?_eq_getElem hlt] at et; rw [Option.some.inj et]; exact hi)
  exact absurd cc (ne_of_gt this)

/-- Crossing an open side back. -/
theorem Mutual.open_symm {ts : List Tri} (h : Mutual pos ts) {fixed : List (Nat × Nat)} {k k' : Nat} (ho : Open fixed ts k k') : Open fixed ts k' k := by
  obtain ⟨t, i, e, hn, hf⟩ := ho
  obtain ⟨t', j, e', h1, h2, h3⟩ := h.other e hn
  exact ⟨t', j, e', h1, by rw [h2, h3, edge_comm]; exact hf⟩

theorem Sd.open {ts : List Tri} {fixed : List (Nat × Nat)} (x : Sd ts) {k : Nat} (hn : x.n = some k) (hf : edge x.a x.b ∉ fixed) : Open fixed ts x.1 k := ⟨x.tri, x.2, x.get, hn, hf⟩

theorem edge_ge {a b m : Nat} (h : m ≤ (edge a b).1 ∧ m ≤ (edge a b).2) : m ≤ a ∧ m ≤ b := by
  unfold edge at h
  split at h
  · exact h
  · exact ⟨h.2, h.1⟩

/-- A side at which one leaves a set that is closed under crossing open sides: fixed, or on the super-triangle. -/
theorem Triangulation.leaves (T : Triangulation pos N s) {fixed : List (Nat × Nat)} {S : Nat → Prop} (closed : ∀ k k', S k → Open fixed s.tris k k' → S k') {x : Sd s.tris} (hx : Leaves S x) :
    edge x.a x.b ∈ fixed ∨ (x.n = none ∧ (x.a, x.b) ∈ [(0, 1), (1, 2), (2, 0)]) := by
  by_cases hf : edge x.a x.b ∈ fixed
  · exact .inl hf
  · right
    cases hn : x.n with
    | none => exact ⟨rfl, (T.border x.1 x.tri x.2 x.get).1 hn⟩
    | some k => exact absurd (closed _ _ hx.1 (x.open hn hf)) (hx.2 k hn)

/-- What is around a corner of the super-triangle. -/
theorem Placed.fan_at (h : Placed pos N) (T : Triangulation pos N s) (S : Nat → Prop) {c : Nat} (hc : c < 3) (no : ∀ x : Sd s.tris, Leaves S x → x.a ≠ c ∧ x.b ≠ c) {k : Nat} (hk : S k) : ¬Corner s.tris k c := by
  have bd : ∀ k v, Corner s.tris k v → v < N := by
    rintro k v ⟨t, i, e, rfl⟩
    exact (T.vertices _).2 ⟨t, List.mem_of_getElem? e, i, rfl⟩
  have z : ∀ a b : V2 K, orient2d a b a = 0 ∧ orient2d a b b = 0 := by intro a b; constructor <;> unfold orient2d <;> ring
  have h0 := h.ccw
  have h1 := orient_rot (pos 0) (pos 1) (pos 2)
  have h2 := orient_rot (pos 1) (pos 2) (pos 0)
  have cl := fun k v (hv : Corner s.tris k v) => h.closed (bd k v hv)
  have rest : ∀ k v, Corner s.tris k v → 3 ≤ v → _ := fun k v hv h3 => h.inside v h3 (bd k v hv)
  have three : ∀ v, v < 3 → v = 0 ∨ v = 1 ∨ v = 2 := by intro v; omega
  rcases three c hc with rfl | rfl | rfl
  · refine T.mutual.fan S (c1 := 1) (c2 := 2) h0 ?_ no hk
    intro k v hv hn
    by_cases h3 : 3 ≤ v
    · obtain ⟨p, q, r⟩ := rest k v hv h3
      linarith
    · rcases three v (by omega) with rfl | rfl | rfl
      · exact absurd rfl hn
      · rw [(z _ _).2, orient_rot2]; rw [h1] at h2; linarith
      · rw [(z _ _).1]; linarith
  · refine T.mutual.fan S (c1 := 2) (c2 := 0) (by linarith) ?_ no hk
    intro k v hv hn
    by_cases h3 : 3 ≤ v
    · obtain ⟨p, q, r⟩ := rest k v hv h3
      linarith
    · rcases three v (by omega) with rfl | rfl | rfl
      · rw [(z _ _).1]; linarith
      · exact absurd rfl hn
      · rw [(z _ _).2]; linarith
  · refine T.mutual.fan S (c1 := 0) (c2 := 1) (by linarith) ?_ no hk
    intro k v hv hn
    by_cases h3 : 3 ≤ v
    · obtain ⟨p, q, r⟩ := rest k v hv h3
      linarith
    · rcases three v (by omega) with rfl | rfl | rfl
      · rw [(z _ _).2]; linarith
      · rw [(z _ _).1]; linarith
      · exact absurd rfl hn

theorem Placed.all_outside (h : Placed pos N) (T : Triangulation pos N s) {fixed : List (Nat × Nat)} (hf : ∀ e ∈ fixed, 3 ≤ e.1 ∧ 3 ≤ e.2) {seed : Nat} (hs : Corner s.tris seed 0) {k c : Nat} (hc : c < 3)
    (hk : Corner s.tris k c) : Relation.ReflTransGen (Open fixed s.tris) seed k := by
  obtain ⟨O, hO⟩ : ∃ O : Nat → Prop, O = fun k => Relation.ReflTransGen (Open fixed s.tris) seed k := ⟨_, rfl⟩
  have clO : ∀ k k', O k → Open fixed s.tris k k' → O k' := by rw [hO]; exact fun k k' h ho => h.tail ho
  have clS : ∀ k k', ¬O k → Open fixed s.tris k k' → ¬O k' := fun k k' h ho h' => h (clO _ _ h' (T.mutual.open_symm ho))
  have ends : ∀ x : Sd s.tris, edge x.a x.b ∈ fixed → 3 ≤ x.a ∧ 3 ≤ x.b := fun x hx => edge_ge (hf _ hx)
  -- all three sides of the super-triangle belong to `O`
  have some0 : ∃ x : Sd s.tris, Leaves O x ∧ (x.a = 0 ∨ x.b = 0) := by
    by_contra hno
    refine h.fan_at T O (c := 0) (by omega) (fun x hx => ⟨fun e => hno ⟨x, hx, .inl e⟩, fun e => hno ⟨x, hx, .inr e⟩⟩) (k := seed) ?_ hs
    rw [hO]
  have step : ∀ {v : Nat}, v < 3 → (∃ x : Sd s.tris, Leaves O x ∧ x.b = v) → ∃ y : Sd s.tris, Leaves O y ∧ y.a = v ∧ (y.a, y.b) ∈ [(0, 1), (1, 2), (2, 0)] := by
    intro v hv hx
    obtain ⟨y, hy, ha⟩ := (T.mutual.turn O).1 hx
    rcases T.leaves clO hy with hb | ⟨-, hb⟩
    · have := ends y hb; omega
    · exact ⟨y, hy, ha, hb⟩
  have from0 : (∃ x : Sd s.tris, Leaves O x ∧ x.b = 0) := by
    obtain ⟨x, hx, ha | hb⟩ := some0
    · exact (T.mutual.turn O).2 ⟨x, hx, ha⟩
    · exact ⟨x, hx, hb⟩
  obtain ⟨x0, l0, a0, m0⟩ := step (by omega) from0
  have b0 : x0.b = 1 := by simp only [List.mem_cons, Prod.mk.injEq, List.not_mem_nil, or_false] at m0; omega
  obtain ⟨x1, l1, a1, m1⟩ := step (by omega) ⟨x0, l0, b0⟩
  have b1 : x1.b = 2 := by simp only [List.mem_cons, Prod.mk.injEq, List.not_mem_nil, or_false] at m1; omega
  obtain ⟨x2, l2, a2, m2⟩ := step (by omega) ⟨x1, l1, b1⟩
  have b2 : x2.b = 0 := by simp only [List.mem_cons, Prod.mk.injEq, List.not_mem_nil, or_false] at m2; omega
  -- so the rest has none
  by_contra hnk
  have hnk' : ¬O k := by rw [hO]; exact hnk
  have other : ∀ x : Sd s.tris, Leaves (fun k => ¬O k) x → 3 ≤ x.a ∧ 3 ≤ x.b := by
    intro x hx
    rcases T.leaves clS hx with hb | ⟨-, hb⟩
    · exact ends x hb
    · exfalso
      simp only [List.mem_cons, Prod.mk.injEq, List.not_mem_nil, or_false] at hb
      rcases hb with ⟨p, q⟩ | ⟨p, q⟩ | ⟨p, q⟩
      · have := T.unique (p.trans a0.symm) (q.trans b0.symm); subst this; exact hx.1 l0.1
      · have := T.unique (p.trans a1.symm) (q.trans b1.symm); subst this; exact hx.1 l1.1
      · have := T.unique (p.trans a2.symm) (q.trans b2.symm); subst this; exact hx.1 l2.1
  refine h.fan_at T (fun k => ¬O k) hc (fun x hx => ?_) hnk' hk
  have := other x hx
  omega

/-- What is reached from a triangle at the corner 0 is what is outside. -/
theorem Placed.outside_iff (h : Placed pos N) (T : Triangulation pos N s) {fixed : List (Nat × Nat)} (hf : ∀ e ∈ fixed, 3 ≤ e.1 ∧ 3 ≤ e.2) {seed : Nat} (hs : Corner s.tris seed 0) (k : Nat) :
    Outside fixed s.tris k ↔ Relation.ReflTransGen (Open fixed s.tris) seed k := by
  constructor
  · rintro ⟨k0, t, i, e, hlt, hr⟩
    exact (h.all_outside T hf hs hlt ⟨t, i, e, rfl⟩).trans hr
  · intro hr
    obtain ⟨t, i, e, h0⟩ := hs
    exact ⟨seed, t, i, e, by omega, hr⟩

end Mcut.Cdt
