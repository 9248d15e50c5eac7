import Verif.Lemmas.C93b
import Mathlib.Data.Finset.Max

/-! More lemmas for C93: two sets of crossings along a line. -/
namespace Mcut.CutEdges
section Crossings
variable {K : Type*} [Field K] [LinearOrder K]

/-- The number of crossings before `s`. -/
def cnt (X : Finset K) (s : K) : Nat := (X.filter (fun x => x < s)).card

theorem cnt_eq {X : Finset K} {s s' : K} (h : s ≤ s') (hno : ∀ x ∈ X, s ≤ x → ¬ x < s') : cnt X s' = cnt X s := by
  unfold cnt
  congr 1
  ext x
  rw [Finset.mem_filter, Finset.mem_filter]
  constructor
  · rintro ⟨h1, h2⟩
    refine ⟨h1, ?_⟩
    by_contra hh
    exact hno x h1 (not_lt.1 hh) h2
  · rintro ⟨h1, h2⟩; exact ⟨h1, lt_of_lt_of_le h2 h⟩

theorem cnt_succ {X : Finset K} {x s : K} (hx : x ∈ X) (h : x < s) (hno : ∀ y ∈ X, x < y → ¬ y < s) : cnt X s = cnt X x + 1 := by
  unfold cnt
  have : X.filter (fun y => y < s) = insert x (X.filter (fun y => y < x)) := by
    ext y
    rw [Finset.mem_insert, Finset.mem_filter, Finset.mem_filter]
    constructor
    · rintro ⟨h1, h2⟩
      rcases lt_trichotomy y x with h3 | h3 | h3
      · exact .inr ⟨h1, h3⟩
      · exact .inl h3
      · exact absurd h2 (hno y h1 h3)
    · rintro (rfl | ⟨h1, h2⟩)
      · exact ⟨hx, h⟩
      · exact ⟨h1, lt_trans h2 h⟩
  rw [this, Finset.card_insert_of_notMem (by simp)]

/-- A common point: a crossing of one face inside of the other. -/
def Common (X Y : Finset K) (s : K) : Prop := (s ∈ X ∧ Odd (cnt Y s)) ∨ (s ∈ Y ∧ Odd (cnt X s))

theorem common_symm {X Y : Finset K} {s : K} : Common X Y s ↔ Common Y X s := by unfold Common; exact Or.comm

/-- Inside of both faces, and on no border. -/
def Both (X Y : Finset K) (s : K) : Prop := s ∉ X ∧ s ∉ Y ∧ Odd (cnt X s) ∧ Odd (cnt Y s)

theorem both_symm {X Y : Finset K} {s : K} : Both X Y s ↔ Both Y X s := by unfold Both; tauto

/-- The first crossing in an interval. -/
theorem first_crossing {Z : Finset K} {q : K → Prop} (h : ∃ z ∈ Z, q z) : ∃ z ∈ Z, q z ∧ ∀ y ∈ Z, q y → z ≤ y := by
  classical
  obtain ⟨z, hz, hq⟩ := h
  obtain ⟨m, hm, hmin⟩ := Finset.exists_min_image (Z.filter q) id ⟨z, Finset.mem_filter.2 ⟨hz, hq⟩⟩
  rw [Finset.mem_filter] at hm
  exact ⟨m, hm.1, hm.2, fun y hy hqy => hmin y (Finset.mem_filter.2 ⟨hy, hqy⟩)⟩

theorem last_crossing {Z : Finset K} {q : K → Prop} (h : ∃ z ∈ Z, q z) : ∃ z ∈ Z, q z ∧ ∀ y ∈ Z, q y → y ≤ z := by
  classical
  obtain ⟨z, hz, hq⟩ := h
  obtain ⟨m, hm, hmax⟩ := Finset.exists_max_image (Z.filter q) id ⟨z, Finset.mem_filter.2 ⟨hz, hq⟩⟩
  rw [Finset.mem_filter] at hm
  exact ⟨m, hm.1, hm.2, fun y hy hqy => hmax y (Finset.mem_filter.2 ⟨hy, hqy⟩)⟩

/-- From a point inside of both, the first crossing after it is common, and so is the last one before it. -/
theorem first_common {X Y : Finset K} (hd : Disjoint X Y) {s y : K} (h : s ≤ y) (hX : Odd (cnt X s)) (hY : Odd (cnt Y s))
    (hy : y ∈ X ∪ Y) (hno : ∀ z ∈ X ∪ Y, s ≤ z → ¬ z < y) : Common X Y y := by
  rcases Finset.mem_union.1 hy with h1 | h1
  · left
    refine ⟨h1, ?_⟩
    rw [cnt_eq h (fun x hx => hno x (Finset.mem_union_right _ hx))]; exact hY
  · right
    refine ⟨h1, ?_⟩
    rw [cnt_eq h (fun x hx => hno x (Finset.mem_union_left _ hx))]; exact hX

theorem last_common {X Y : Finset K} (hd : Disjoint X Y) {s y : K} (h : y < s) (hX : Odd (cnt X s)) (hY : Odd (cnt Y s))
    (hy : y ∈ X ∪ Y) (hno : ∀ z ∈ X ∪ Y, y < z → ¬ z < s) : Common X Y y := by
  rcases Finset.mem_union.1 hy with h1 | h1
  · left
    refine ⟨h1, ?_⟩
    rw [← cnt_eq h.le (s' := s) (fun x hx hyx => hno x (Finset.mem_union_right _ hx) (lt_of_le_of_ne hyx ?_))]
    · exact hY
    · rintro rfl; exact Finset.disjoint_left.1 hd h1 hx
  · right
    refine ⟨h1, ?_⟩
    rw [← cnt_eq h.le (s' := s) (fun x hx hyx => hno x (Finset.mem_union_left _ hx) (lt_of_le_of_ne hyx ?_))]
    · exact hX
    · rintro rfl; exact Finset.disjoint_left.1 hd hx h1

/-- From a crossing `p` of the first face to a point `s` with no common point in between. -/
theorem right_both {X Y : Finset K} (hd : Disjoint X Y) {p s : K} (hp : p ∈ X) (hY : Odd (cnt Y p)) (hps : p < s) (hno : ∀ y, p < y → y ≤ s → ¬ Common X Y y) :
    Both X Y s ↔ Even (cnt X p) := by
  have hpY : p ∉ Y := fun h => Finset.disjoint_left.1 hd hp h
  constructor
  · rintro ⟨sX, sY, oX, oY⟩
    by_contra he
    rw [Nat.not_even_iff_odd] at he
    by_cases hc : ∃ z ∈ X ∪ Y, p < z ∧ z < s
    · obtain ⟨z, hz, ⟨z1, z2⟩, hl⟩ := last_crossing hc
      exact hno z z1 z2.le (last_common hd z2 oX oY hz (fun w hw hzw hws => absurd (hl w hw ⟨lt_trans z1 hzw, hws⟩) (not_le.2 hzw)))
    · have := cnt_succ hp hps (fun y hy h1 h2 => hc ⟨y, Finset.mem_union_left _ hy, h1, h2⟩)
      rw [this] at oX
      exact (Nat.not_odd_iff_even.2 he.add_one) oX
  · intro he
    have hc : ¬ ∃ z ∈ X ∪ Y, p < z ∧ z ≤ s := by
      intro hc
      obtain ⟨z, hz, ⟨z1, z2⟩, hl⟩ := first_crossing hc
      apply hno z z1 z2
      have nx : ∀ y ∈ X ∪ Y, p < y → ¬ y < z := fun y hy h1 h2 => absurd (hl y hy ⟨h1, h2.le.trans z2⟩) (not_le.2 h2)
      rcases Finset.mem_union.1 hz with h1 | h1
      · left
        refine ⟨h1, ?_⟩
        rw [cnt_eq z1.le (fun x hx hpx => nx x (Finset.mem_union_right _ hx) (lt_of_le_of_ne hpx (by rintro rfl; exact hpY hx)))]
        exact hY
      · right
        refine ⟨h1, ?_⟩
        rw [cnt_succ hp z1 (fun y hy => nx y (Finset.mem_union_left _ hy))]
        exact he.add_one
    refine ⟨fun h => hc ⟨s, Finset.mem_union_left _ h, hps, le_refl _⟩, fun h => hc ⟨s, Finset.mem_union_right _ h, hps, le_refl _⟩, ?_, ?_⟩
    · rw [cnt_succ hp hps (fun y hy h1 h2 => hc ⟨y, Finset.mem_union_left _ hy, h1, h2.le⟩)]
      exact he.add_one
    · rw [cnt_eq hps.le (fun x hx hpx h2 => hc ⟨x, Finset.mem_union_right _ hx, lt_of_le_of_ne hpx (by rintro rfl; exact hpY hx), h2.le⟩)]
      exact hY

/-- From a point `s` to a crossing `q` of the first face with no common point in between. -/
theorem left_both {X Y : Finset K} (hd : Disjoint X Y) {s q : K} (hq : q ∈ X) (hY : Odd (cnt Y q)) (hsq : s < q) (hno : ∀ y, s ≤ y → y < q → ¬ Common X Y y) :
    Both X Y s ↔ Odd (cnt X q) := by
  constructor
  · rintro ⟨sX, sY, oX, oY⟩
    by_cases hc : ∃ z ∈ X ∪ Y, s ≤ z ∧ z < q
    · obtain ⟨z, hz, ⟨z1, z2⟩, hl⟩ := first_crossing hc
      exact absurd (first_common hd z1 oX oY hz (fun w hw h1 h2 => absurd (hl w hw ⟨h1, lt_trans h2 z2⟩) (not_le.2 h2))) (hno z z1 z2)
    · rw [cnt_eq hsq.le (fun y hy h1 h2 => hc ⟨y, Finset.mem_union_left _ hy, h1, h2⟩)]
      exact oX
  · intro ho
    have hc : ¬ ∃ z ∈ X ∪ Y, s ≤ z ∧ z < q := by
      intro hc
      obtain ⟨z, hz, ⟨z1, z2⟩, hl⟩ := last_crossing hc
      exact hno z z1 z2 (last_common hd z2 ho hY hz (fun w hw h1 h2 => absurd (hl w hw ⟨z1.trans h1.le, h2⟩) (not_le.2 h1)))
    refine ⟨fun h => hc ⟨s, Finset.mem_union_left _ h, le_refl _, hsq⟩, fun h => hc ⟨s, Finset.mem_union_right _ h, le_refl _, hsq⟩, ?_, ?_⟩
    · rw [← cnt_eq hsq.le (fun y hy h1 h2 => hc ⟨y, Finset.mem_union_left _ hy, h1, h2⟩)]; exact ho
    · rw [← cnt_eq hsq.le (fun y hy h1 h2 => hc ⟨y, Finset.mem_union_right _ hy, h1, h2⟩)]; exact hY

/-- A common point after `p`. -/
theorem right_common {X Y : Finset K} (hd : Disjoint X Y) (hYe : Even Y.card) {p : K} (hp : p ∈ X) (hY : Odd (cnt Y p)) (he : Even (cnt X p)) :
    ∃ y, p < y ∧ Common X Y y := by
  have hpY : p ∉ Y := fun h => Finset.disjoint_left.1 hd hp h
  have hc : ∃ z ∈ X ∪ Y, p < z := by
    by_contra hn
    have : Y.filter (fun x => x < p) = Y := by
      rw [Finset.filter_eq_self]
      intro x hx
      rcases lt_trichotomy x p with h | h | h
      · exact h
      · rw [h] at hx; exact absurd hx hpY
      · exact absurd ⟨x, Finset.mem_union_right _ hx, h⟩ hn
    unfold cnt at hY
    rw [this] at hY
    exact (Nat.not_odd_iff_even.2 hYe) hY
  obtain ⟨z, hz, z1, hl⟩ := first_crossing hc
  refine ⟨z, z1, ?_⟩
  have nx : ∀ y ∈ X ∪ Y, p < y → ¬ y < z := fun y hy h1 h2 => absurd (hl y hy h1) (not_le.2 h2)
  rcases Finset.mem_union.1 hz with h1 | h1
  · left
    refine ⟨h1, ?_⟩
    rw [cnt_eq z1.le (fun x hx hpx => nx x (Finset.mem_union_right _ hx) (lt_of_le_of_ne hpx (by rintro rfl; exact hpY hx)))]
    exact hY
  · right
    refine ⟨h1, ?_⟩
    rw [cnt_succ hp z1 (fun y hy => nx y (Finset.mem_union_left _ hy))]
    exact he.add_one

/-- A common point before `q`. -/
theorem left_common {X Y : Finset K} (hd : Disjoint X Y) {q : K} (hY : Odd (cnt Y q)) (ho : Odd (cnt X q)) : ∃ y, y < q ∧ Common X Y y := by
  have hc : ∃ z ∈ X ∪ Y, z < q := by
    have : (X.filter (fun x => x < q)).Nonempty := by
      rw [← Finset.card_pos]
      exact ho.pos
    obtain ⟨z, hz⟩ := this
    rw [Finset.mem_filter] at hz
    exact ⟨z, Finset.mem_union_left _ hz.1, hz.2⟩
  obtain ⟨z, hz, z1, hl⟩ := last_crossing hc
  exact ⟨z, z1, last_common hd z1 ho hY hz (fun w hw h1 h2 => absurd (hl w hw h2) (not_le.2 h1))⟩

variable [IsStrictOrderedRing K]

/-- Nothing common strictly between `p` and `q`, which is common. -/
def Nearest (X Y : Finset K) (p q : K) : Prop := q ≠ p ∧ Common X Y q ∧ ∀ y, Common X Y y → ¬ ((p < y ∧ y < q) ∨ (q < y ∧ y < p))

/-- A common point has exactly one neighbour with the middle inside of both. -/
theorem one_neighbour {X Y : Finset K} (hd : Disjoint X Y) (hYe : Even Y.card) {p : K} (hp : p ∈ X) (hY : Odd (cnt Y p)) :
    ∃ q, (Nearest X Y p q ∧ Both X Y ((p + q) / 2)) ∧ ∀ q', Nearest X Y p q' ∧ Both X Y ((p + q') / 2) → q' = q := by
  have inU : ∀ y, Common X Y y → y ∈ X ∪ Y := by
    rintro y (h | h)
    · exact Finset.mem_union_left _ h.1
    · exact Finset.mem_union_right _ h.1
  have right : ∀ q, p < q → Nearest X Y p q → (Both X Y ((p + q) / 2) ↔ Even (cnt X p)) := by
    intro q hpq hn
    refine right_both hd hp hY (by linarith) (fun y h1 h2 hc => hn.2.2 y hc (.inl ⟨h1, by linarith⟩))
  have left : ∀ q, q < p → Nearest X Y p q → (Both X Y ((p + q) / 2) ↔ Odd (cnt X p)) := by
    intro q hpq hn
    refine left_both hd hp hY (by linarith) (fun y h1 h2 hc => hn.2.2 y hc (.inr ⟨by linarith, h2⟩))
  rcases Nat.even_or_odd (cnt X p) with he | ho
  · obtain ⟨y, hy, hc⟩ := right_common hd hYe hp hY he
    obtain ⟨q, -, ⟨h1, h2⟩, hmin⟩ := first_crossing (Z := X ∪ Y) (q := fun z => p < z ∧ Common X Y z) ⟨y, inU y hc, hy, hc⟩
    have hn : Nearest X Y p q := by
      refine ⟨h1.ne', h2, fun y hy => ?_⟩
      rintro (⟨a, b⟩ | ⟨a, b⟩)
      · exact absurd (hmin y (inU y hy) ⟨a, hy⟩) (not_le.2 b)
      · exact lt_asymm h1 (lt_trans a b)
    refine ⟨q, ⟨hn, (right q h1 hn).2 he⟩, ?_⟩
    rintro q' ⟨hn', hb'⟩
    rcases lt_or_gt_of_ne hn'.1 with h | h
    · exact absurd ((left q' h hn').1 hb') (Nat.not_odd_iff_even.2 he)
    · refine le_antisymm ?_ (hmin q' (inU _ hn'.2.1) ⟨h, hn'.2.1⟩)
      by_contra hlt
      exact hn'.2.2 q h2 (.inl ⟨h1, not_le.1 hlt⟩)
  · obtain ⟨y, hy, hc⟩ := left_common hd hY ho
    obtain ⟨q, -, ⟨h1, h2⟩, hmax⟩ := last_crossing (Z := X ∪ Y) (q := fun z => z < p ∧ Common X Y z) ⟨y, inU y hc, hy, hc⟩
    have hn : Nearest X Y p q := by
      refine ⟨h1.ne, h2, fun y hy => ?_⟩
      rintro (⟨a, b⟩ | ⟨a, b⟩)
      · exact lt_asymm h1 (lt_trans a b)
      · exact absurd (hmax y (inU y hy) ⟨b, hy⟩) (not_le.2 a)
    refine ⟨q, ⟨hn, (left q h1 hn).2 ho⟩, ?_⟩
    rintro q' ⟨hn', hb'⟩
    rcases lt_or_gt_of_ne hn'.1 with h | h
    · refine le_antisymm (hmax q' (inU _ hn'.2.1) ⟨h, hn'.2.1⟩) ?_
      by_contra hlt
      exact hn'.2.2 q h2 (.inr ⟨not_le.1 hlt, h1⟩)
    · exact absurd ((right q' h hn').1 hb') (Nat.not_even_iff_odd.2 ho)

end Crossings

section Unique
open Mcut.Geom Mcut.Hmesh Mcut.Registry
variable {K : Type*} [Field K] [LinearOrder K] [IsStrictOrderedRing K]

/-- By the even-odd rule every common point of two faces is the end of exactly one segment. -/
theorem segment_unique {test : Nat → V3 K → Bool} {pos : Nat → V3 K} {cut : Nat × Nat → List Nat} {k : Nat × Nat} (E : EvenOdd test pos k (cut k))
    (hd : ∀ v ∈ cut k, ∀ w ∈ cut k, pos v = pos w → v = w) {v : Nat} (hv : v ∈ cut k) :
    ∃ w, (NextTo pos (cut k) v w ∧ test k.1 (halfway (pos v) (pos w)) = true ∧ test k.2 (halfway (pos v) (pos w)) = true) ∧
      ∀ w', (NextTo pos (cut k) v w' ∧ test k.1 (halfway (pos v) (pos w')) = true ∧ test k.2 (halfway (pos v) (pos w')) = true) → w' = w := by
  obtain ⟨a, u, t, X, Y, hu, hpos, hdis, eX, eY, fX, fY, hcom⟩ := E
  have nX : ∀ {s}, s ∈ Y → s ∉ X := fun hy hx => Finset.disjoint_left.1 hdis hx hy
  have nY : ∀ {s}, s ∈ X → s ∉ Y := fun hx hy => Finset.disjoint_left.1 hdis hx hy
  have hcom : ∀ s, (∃ v ∈ cut k, t v = s) ↔ Common X Y s := by
    intro s
    rw [hcom]
    unfold Common cnt
    constructor
    · rintro (⟨h1, h2⟩ | ⟨h1, h2⟩)
      · exact .inl ⟨h1, (fY s (nY h1)).1 h2⟩
      · exact .inr ⟨h1, (fX s (nX h1)).1 h2⟩
    · rintro (⟨h1, h2⟩ | ⟨h1, h2⟩)
      · exact .inl ⟨h1, (fY s (nY h1)).2 h2⟩
      · exact .inr ⟨h1, (fX s (nX h1)).2 h2⟩
  have hboth : ∀ s, ¬ Common X Y s → ((test k.1 (onLine a u s) = true ∧ test k.2 (onLine a u s) = true) ↔ Both X Y s) := by
    intro s hs
    constructor
    · rintro ⟨h1, h2⟩
      have sX : s ∉ X := fun h => hs (.inl ⟨h, (fY s (nY h)).1 h2⟩)
      have sY : s ∉ Y := fun h => hs (.inr ⟨h, (fX s (nX h)).1 h1⟩)
      exact ⟨sX, sY, (fX s sX).1 h1, (fY s sY).1 h2⟩
    · rintro ⟨sX, sY, h1, h2⟩
      exact ⟨(fX s sX).2 h1, (fY s sY).2 h2⟩
  have huu : u.x * u.x + u.y * u.y + u.z * u.z ≠ 0 := by
    intro e
    apply hu
    have x0 : u.x * u.x = 0 := by nlinarith [mul_self_nonneg u.x, mul_self_nonneg u.y, mul_self_nonneg u.z]
    have y0 : u.y * u.y = 0 := by nlinarith [mul_self_nonneg u.x, mul_self_nonneg u.y, mul_self_nonneg u.z]
    have z0 : u.z * u.z = 0 := by nlinarith [mul_self_nonneg u.x, mul_self_nonneg u.y, mul_self_nonneg u.z]
    ext
    · exact mul_self_eq_zero.1 x0
    · exact mul_self_eq_zero.1 y0
    · exact mul_self_eq_zero.1 z0
  have tinj : ∀ v ∈ cut k, ∀ w ∈ cut k, t v = t w → v = w := by
    intro v hv w hw e
    apply hd v hv w hw
    rw [hpos v hv, hpos w hw, e]
  have hline : ∀ v ∈ cut k, (pos v).x = a.x + t v * u.x ∧ (pos v).y = a.y + t v * u.y ∧ (pos v).z = a.z + t v * u.z := by
    intro v hv
    rw [hpos v hv]; exact ⟨rfl, rfl, rfl⟩
  have hhalf : ∀ {w}, w ∈ cut k → halfway (pos v) (pos w) = onLine a u ((t v + t w) / 2) := by
    intro w hw
    rw [hpos v hv, hpos w hw]
    unfold halfway onLine
    ext
    · simp only; ring
    · simp only; ring
    · simp only; ring
  have hnear : ∀ {w}, w ∈ cut k → (NextTo pos (cut k) v w ↔ Nearest X Y (t v) (t w)) := by
    intro w hw
    unfold NextTo Nearest
    constructor
    · rintro ⟨-, -, hne, hb⟩
      have hvw : t v ≠ t w := fun e => hne (tinj v hv w hw e)
      refine ⟨hvw.symm, (hcom _).1 ⟨w, hw, rfl⟩, fun y hy hyb => ?_⟩
      obtain ⟨x, hx, rfl⟩ := (hcom y).2 hy
      exact hb x hx ((between_iff huu hline hv hx hw hvw).2 hyb)
    · rintro ⟨hvw, -, hb⟩
      refine ⟨hv, hw, fun e => hvw (by rw [e]), fun x hx hxb => ?_⟩
      exact hb (t x) ((hcom _).1 ⟨x, hx, rfl⟩) ((between_iff huu hline hv hx hw (Ne.symm hvw)).1 hxb)
  have mid : ∀ {q}, Nearest X Y (t v) q → ¬ Common X Y ((t v + q) / 2) := by
    intro q hn hc
    rcases lt_or_gt_of_ne hn.1 with h | h
    · exact hn.2.2 _ hc (.inr ⟨by linarith, by linarith⟩)
    · exact hn.2.2 _ hc (.inl ⟨by linarith, by linarith⟩)
  have main : ∃ q, (Nearest X Y (t v) q ∧ Both X Y ((t v + q) / 2)) ∧ ∀ q', Nearest X Y (t v) q' ∧ Both X Y ((t v + q') / 2) → q' = q := by
    rcases (hcom _).1 ⟨v, hv, rfl⟩ with ⟨h1, h2⟩ | ⟨h1, h2⟩
    · exact one_neighbour hdis eY h1 h2
    · obtain ⟨q, ⟨n, b⟩, hq⟩ := one_neighbour hdis.symm eX h1 h2
      have swap : ∀ {q}, Nearest Y X (t v) q ↔ Nearest X Y (t v) q := by
        intro q
        unfold Nearest
        simp only [common_symm (X := Y) (Y := X)]
      exact ⟨q, ⟨swap.1 n, both_symm.1 b⟩, fun q' h => hq q' ⟨swap.2 h.1, both_symm.1 h.2⟩⟩
  obtain ⟨q, ⟨hn, hb⟩, hq⟩ := main
  obtain ⟨w, hw, rfl⟩ := (hcom q).2 hn.2.1
  refine ⟨w, ⟨(hnear hw).2 hn, ?_⟩, ?_⟩
  · rw [hhalf hw]; exact (hboth _ (mid hn)).2 hb
  · rintro w' ⟨n', b'⟩
    have hw' := n'.2.1
    have hn' := (hnear hw').1 n'
    rw [hhalf hw'] at b'
    exact tinj w' hw' w hw (hq _ ⟨hn', (hboth _ (mid hn')).1 b'⟩)

end Unique

section Symm
open Mcut.Geom
variable {K : Type*} [Field K] [LinearOrder K] [IsStrictOrderedRing K]

theorem nextTo_symm {pos : Nat → V3 K} {l : List Nat} {v w : Nat} (h : NextTo pos l v w) : NextTo pos l w v := by
  obtain ⟨a, b, c, h⟩ := h
  refine ⟨b, a, c.symm, fun u hu => ?_⟩
  rintro ⟨s, s0, s1, e1, e2, e3⟩
  exact h u hu ⟨1 - s, by linarith, by linarith, by linear_combination e1, by linear_combination e2, by linear_combination e3⟩

theorem segment_symm {test : Nat → V3 K → Bool} {pos : Nat → V3 K} {cut : Nat × Nat → List Nat} {k : Nat × Nat} {v w : Nat} (h : Segment test pos cut k v w) :
    Segment test pos cut k w v := by
  refine ⟨nextTo_symm h.1, ?_⟩
  rw [← middle_halfway, middle_comm, middle_halfway]; exact h.2

/-- Two points only are always joined. -/
theorem segment_two {test : Nat → V3 K → Bool} {pos : Nat → V3 K} {cut : Nat × Nat → List Nat} {k : Nat × Nat} {v w : Nat} (h : cut k = [v, w]) (hvw : v ≠ w)
    (hpl : ∀ v ∈ cut k, ∀ w ∈ cut k, pos v = pos w → v = w) : Segment test pos cut k v w := by
  rw [h] at hpl
  unfold Segment NextTo
  rw [h]
  refine ⟨⟨by simp, by simp, hvw, ?_⟩, .inl rfl⟩
  have hne : pos v ≠ pos w := fun e => hvw (hpl v (by simp) w (by simp) e)
  rintro u hu ⟨s, s0, s1, e1, e2, e3⟩
  apply hne
  simp only [List.mem_cons, List.not_mem_nil, or_false] at hu
  rcases hu with rfl | rfl
  · have hs : s ≠ 0 := s0.ne'
    ext
    · have : s * ((pos w).x - (pos u).x) = 0 := by linarith
      rcases mul_eq_zero.1 this with h | h
      · exact absurd h hs
      · linarith
    · have : s * ((pos w).y - (pos u).y) = 0 := by linarith
      rcases mul_eq_zero.1 this with h | h
      · exact absurd h hs
      · linarith
    · have : s * ((pos w).z - (pos u).z) = 0 := by linarith
      rcases mul_eq_zero.1 this with h | h
      · exact absurd h hs
      · linarith
  · have hs : 1 - s ≠ 0 := by intro h; linarith
    ext
    · have : (1 - s) * ((pos u).x - (pos v).x) = 0 := by linear_combination e1
      rcases mul_eq_zero.1 this with h | h
      · exact absurd h hs
      · linarith
    · have : (1 - s) * ((pos u).y - (pos v).y) = 0 := by linear_combination e2
      rcases mul_eq_zero.1 this with h | h
      · exact absurd h hs
      · linarith
    · have : (1 - s) * ((pos u).z - (pos v).z) = 0 := by linear_combination e3
      rcases mul_eq_zero.1 this with h | h
      · exact absurd h hs
      · linarith

end Symm

section Degree
open Mcut.Hmesh Mcut.Registry
variable {P : Type}

/-- The pair of faces at which a point of face `g` of its edge and tested face `f` is listed. -/
def pairOf (smF f g : Nat) : Nat × Nat := if g < smF then (g, f) else (f, g)

/-- The number of cut edges at a point, if every common point of two faces is the end of exactly one of theirs. -/
theorem degree_of {d : P} {ps m : Mesh P} {smV smF base : Nat} {reg : List (Nat × Nat)} {cut : Nat × Nat → List Nat} (K : Known d ps smV smF base reg cut)
    (hnd : reg.Nodup) (h1 : OneCommonEdge ps) {seg : Nat × Nat → Nat → Nat → Prop} {st : St P} (G : GraphOf m seg st)
    (hin : ∀ k v w, seg k v w → v ≠ w ∧ v ∈ cut k ∧ w ∈ cut k) (hsym : ∀ k v w, seg k v w → seg k w v)
    (hex : ∀ k, ∀ v ∈ cut k, ∃ w, seg k v w ∧ ∀ w', seg k v w' → w' = w) {i e f : Nat} (hi : reg[i]? = some (e, f)) :
    (BorderEdge ps e → (st.incoming (base + i)).length = 1) ∧ (¬ BorderEdge ps e → (st.incoming (base + i)).length = 2) := by
  have S := K.sided _ (List.mem_of_getElem? hi)
  simp only at S
  have hiv : reg[base + i - base]? = some (e, f) := by rw [Nat.add_sub_cancel_left]; exact hi
  have hkey : ∀ g, OnEdge ps e g → base + i ∈ cut (pairOf smF f g) := by
    intro g hg
    have h3 := S.one g hg
    have h4 := S.face
    unfold pairOf
    split
    · exact K.of_entry (by omega) hiv (by assumption) (h4.2 (fun h => by have := h3.2 h; omega)) (.inl ⟨hg, rfl⟩)
    · rename_i hlt
      have : f < smF := by
        by_contra hh
        exact (h4.1 (by omega)) (h3.1 (by omega))
      exact K.of_entry (by omega) hiv this (by simp only; omega) (.inr ⟨hg, rfl⟩)
  have hback : ∀ k, base + i ∈ cut k → ∃ g, OnEdge ps e g ∧ k = pairOf smF f g := by
    intro k hk
    obtain ⟨e', f', -, hr, k1, k2, h⟩ := K.entry hk
    rw [hiv] at hr
    simp only [Option.some.injEq, Prod.mk.injEq] at hr
    obtain ⟨rfl, rfl⟩ := hr
    rcases h with ⟨h, rfl⟩ | ⟨h, rfl⟩
    · exact ⟨k.1, h, by unfold pairOf; rw [if_pos k1]⟩
    · exact ⟨k.2, h, by unfold pairOf; rw [if_neg (by omega)]⟩
  generalize hv : base + i = v at *
  have split : ∀ h, h = edgeOf h * 2 + 0 ∨ h = edgeOf h * 2 + 1 := fun h => by unfold edgeOf; omega
  -- the halfedge for a face
  have one : ∀ g, OnEdge ps e g → ∃ h w, h ∈ st.incoming v ∧ seg (pairOf smF f g) v w ∧ Joins st.m0 (edgeOf h) v w ∧
      ∀ h' w', h' ∈ st.incoming v → seg (pairOf smF f g) v w' → Joins st.m0 (edgeOf h') v w' → h' = h := by
    intro g hg
    obtain ⟨w, hs, hu⟩ := hex _ v (hkey g hg)
    obtain ⟨e1, he1, hj⟩ := G.every _ _ _ hs
    have hne := (hin _ _ _ hs).1
    have uniq : ∀ h0, edgeOf h0 = e1 → st.m0.target h0 = v → ∀ h' w', h' ∈ st.incoming v → seg (pairOf smF f g) v w' → Joins st.m0 (edgeOf h') v w' → h' = h0 := by
      intro h0 e0 t0 h' w' hh hs' hj'
      obtain rfl := hu w' hs'
      obtain ⟨hm, ht⟩ := (G.incoming v h').1 hh
      have hee := G.once _ hm _ he1 _ _ hj' hj
      have hloop := G.noLoop _ he1
      by_contra hne'
      apply hloop
      unfold Mesh.edgeVertex
      rcases split h0 with a | a <;> rcases split h' with b | b
      · exfalso; apply hne'; rw [a, b, hee, e0]
      · rw [e0] at a; rw [hee] at b; rw [← a, ← b, ht, t0]
      · rw [e0] at a; rw [hee] at b; rw [← a, ← b, ht, t0]
      · exfalso; apply hne'; rw [a, b, hee, e0]
    rcases hj with ⟨j1, j2⟩ | ⟨j1, j2⟩
    · have e0 : edgeOf (e1 * 2 + 0) = e1 := by unfold edgeOf; omega
      exact ⟨e1 * 2 + 0, w, (G.incoming _ _).2 ⟨by rw [e0]; exact he1, j1⟩, hs, by rw [e0]; exact .inl ⟨j1, j2⟩, uniq _ e0 j1⟩
    · have e0 : edgeOf (e1 * 2 + 1) = e1 := by unfold edgeOf; omega
      exact ⟨e1 * 2 + 1, w, (G.incoming _ _).2 ⟨by rw [e0]; exact he1, j2⟩, hs, by rw [e0]; exact .inr ⟨j1, j2⟩, uniq _ e0 j2⟩
  -- every halfedge has a face
  have all : ∀ h ∈ st.incoming v, ∃ g w, OnEdge ps e g ∧ seg (pairOf smF f g) v w ∧ Joins st.m0 (edgeOf h) v w := by
    intro h hh
    obtain ⟨hm, ht⟩ := (G.incoming _ h).1 hh
    obtain ⟨k, x, w, hs, hj⟩ := G.only _ hm
    have : ∃ w, seg k v w ∧ Joins st.m0 (edgeOf h) v w := by
      rcases split h with a | a <;> rw [a] at ht <;> rcases hj with ⟨j1, j2⟩ | ⟨j1, j2⟩
      · obtain rfl : x = v := j1.symm.trans ht
        exact ⟨w, hs, .inl ⟨j1, j2⟩⟩
      · obtain rfl : w = v := j1.symm.trans ht
        exact ⟨x, hsym _ _ _ hs, .inl ⟨j1, j2⟩⟩
      · obtain rfl : w = v := j2.symm.trans ht
        exact ⟨x, hsym _ _ _ hs, .inr ⟨j1, j2⟩⟩
      · obtain rfl : x = v := j2.symm.trans ht
        exact ⟨w, hs, .inr ⟨j1, j2⟩⟩
    obtain ⟨w, hs, hj⟩ := this
    obtain ⟨g, hg, rfl⟩ := hback k (hin _ _ _ hs).2.1
    exact ⟨g, w, hg, hs, hj⟩
  obtain ⟨g0, hg0⟩ := S.used
  obtain ⟨x0, w0, a1, a2, a3, a4⟩ := one g0 hg0
  constructor
  · intro hbord
    have only : ∀ g, OnEdge ps e g → g = g0 := by
      intro g hg
      unfold BorderEdge at hbord
      unfold OnEdge at hg hg0
      rcases hbord with h | h <;> rw [h] at hg hg0 <;> simp only [reduceCtorEq, false_or, or_false] at hg hg0 <;> rw [hg0] at hg <;> exact (Option.some.inj hg).symm
    have : (st.incoming v).Perm [x0] := by
      rw [List.perm_ext_iff_of_nodup (G.inNodup _) (by simp)]
      intro h
      rw [List.mem_singleton]
      constructor
      · intro hh
        obtain ⟨g, w, hg, b1, b2⟩ := all h hh
        obtain rfl := only g hg
        exact a4 h w hh b1 b2
      · rintro rfl; exact a1
    simpa using this.length_eq
  · intro hbord
    obtain ⟨g1, hg1, hg01, honly⟩ : ∃ g1, OnEdge ps e g1 ∧ g0 ≠ g1 ∧ ∀ g, OnEdge ps e g → g = g0 ∨ g = g1 := by
      unfold BorderEdge at hbord
      rw [not_or] at hbord
      obtain ⟨p0, q0⟩ := Option.ne_none_iff_exists'.1 hbord.1
      obtain ⟨p1, q1⟩ := Option.ne_none_iff_exists'.1 hbord.2
      have hne : p0 ≠ p1 := by rintro rfl; exact S.two p0 ⟨q0, q1⟩
      have ho : ∀ g, OnEdge ps e g ↔ g = p0 ∨ g = p1 := by
        intro g; unfold OnEdge; rw [q0, q1]; simp [eq_comm]
      rcases (ho g0).1 hg0 with rfl | rfl
      · exact ⟨p1, (ho p1).2 (.inr rfl), hne, fun g hg => (ho g).1 hg⟩
      · exact ⟨p0, (ho p0).2 (.inl rfl), hne.symm, fun g hg => ((ho g).1 hg).symm⟩
    obtain ⟨x1, w1, c1, c2, c3, c4⟩ := one g1 hg1
    have hne01 : x0 ≠ x1 := by
      rintro rfl
      have hw : w0 = w1 := by
        rcases a3 with ⟨p1, p2⟩ | ⟨p1, p2⟩ <;> rcases c3 with ⟨q1, q2⟩ | ⟨q1, q2⟩
        · exact p2.symm.trans q2
        · exact absurd (q1.symm.trans p1) (hin _ _ _ c2).1.symm
        · exact absurd (p1.symm.trans q1) (hin _ _ _ a2).1.symm
        · exact p1.symm.trans q1
      subst hw
      obtain ⟨n, m1, m2⟩ := hin _ _ _ a2
      obtain ⟨-, m3, m4⟩ := hin _ _ _ c2
      have hk := K.key_unique hnd h1 n m1 m2 m3 m4
      have q0 := S.one g0 hg0
      have q1 := S.one g1 hg1
      unfold pairOf at hk
      by_cases hl : g0 < smF
      · rw [if_pos hl, if_pos (by by_contra hh; have := q0.2 (q1.1 (by omega)); omega)] at hk
        exact hg01 (congrArg Prod.fst hk)
      · rw [if_neg hl, if_neg (by intro hh; have := q1.2 (q0.1 (by omega)); omega)] at hk
        exact hg01 (congrArg Prod.snd hk)
    have : (st.incoming v).Perm [x0, x1] := by
      rw [List.perm_ext_iff_of_nodup (G.inNodup _) (by simp [hne01])]
      intro h
      rw [List.mem_cons, List.mem_singleton]
      constructor
      · intro hh
        obtain ⟨g, w, hg, b1, b2⟩ := all h hh
        rcases honly g hg with rfl | rfl
        · exact .inl (a4 h w hh b1 b2)
        · exact .inr (c4 h w hh b1 b2)
      · rintro (rfl | rfl)
        · exact a1
        · exact c1
    simpa using this.length_eq

end Degree
end Mcut.CutEdges
