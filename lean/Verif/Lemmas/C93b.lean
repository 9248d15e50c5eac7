import Verif.Lemmas.C93
import Mathlib.Tactic.Linarith
import Mathlib.Tactic.LinearCombination
import Mathlib.Tactic.Positivity
import Mathlib.Tactic.FieldSimp

/-! More lemmas for C93: a whole pair of faces; the order along a line. -/
namespace Mcut.CutEdges
open Mcut.Hmesh Mcut.Registry
variable {P : Type}

theorem Going.mono {d : P} {m : Mesh P} {seg : Nat × Nat → Nat → Nat → Prop} {D D' : Nat → Nat → Prop} {st : St P} (p : Going d m seg D st)
    (h : ∀ a b, D' a b → D a b) : Going d m seg D' st := { p with every := fun a b hd => p.every a b (h a b hd) }

theorem mem_zip_tail (v w : Nat) : ∀ l : List Nat, (v, w) ∈ l.zip l.tail ↔ ∃ l1 l2, l = l1 ++ v :: w :: l2
  | [] => by simp
  | [a] => by
    simp only [List.tail_cons, List.zip_nil_right, List.not_mem_nil, false_iff]
    rintro ⟨l1, l2, h⟩
    have := congrArg List.length h
    simp at this
    omega
  | a :: b :: l => by
    have ih := mem_zip_tail v w (b :: l)
    rw [List.tail_cons, List.zip_cons_cons, List.mem_cons]
    rw [List.tail_cons] at ih
    rw [ih]
    constructor
    · rintro (h | ⟨l1, l2, h⟩)
      · obtain ⟨rfl, rfl⟩ := Prod.mk.inj h
        exact ⟨[], l, rfl⟩
      · exact ⟨a :: l1, l2, by rw [h]; rfl⟩
    · rintro ⟨l1, l2, h⟩
      cases l1 with
      | nil => injection h with h1 h2; injection h2 with h2 h3; subst h1 h2; exact .inl rfl
      | cons c l1 => injection h with h1 h2; exact .inr ⟨l1, l2, h2⟩

theorem links_going {d : P} {ps : Mesh P} {smV smF base : Nat} {reg : List (Nat × Nat)} {cut : Nat × Nat → List Nat} {m : Mesh P} {seg : Nat × Nat → Nat → Nat → Prop}
    (T : Task d ps smV smF base reg cut m seg) {k : Nat × Nat} (inside : Nat → Nat → Nat → Bool) : ∀ (L : List (Nat × Nat)) (D : Nat → Nat → Prop) (st : St P),
    Going d m seg D st → (∀ x ∈ L, x.1 ≠ x.2 ∧ x.1 ∈ cut k ∧ x.2 ∈ cut k ∧ (inside k.1 x.1 x.2 = true ∧ inside k.2 x.1 x.2 = true → seg k x.1 x.2)) →
    ∃ st', L.foldlM (fun st x => link ps base reg inside st x.1 x.2) st = some st' ∧
      Going d m seg (fun a b => D a b ∨ ((a, b) ∈ L ∧ inside k.1 a b = true ∧ inside k.2 a b = true)) st' := by
  intro L
  induction L with
  | nil => intro D st p _; exact ⟨st, rfl, p.mono (by simp)⟩
  | cons x L ih =>
    intro D st p hL
    obtain ⟨a1, a2, a3, a4⟩ := hL x (by simp)
    obtain ⟨st1, e1, p1⟩ := link_going T p a1 a2 a3 inside a4
    obtain ⟨st2, e2, p2⟩ := ih _ st1 p1 (fun y hy => hL y (by simp [hy]))
    refine ⟨st2, by rw [List.foldlM_cons, e1]; exact e2, p2.mono ?_⟩
    intro a b h
    rcases h with h | ⟨h, h'⟩
    · exact .inl (.inl h)
    · rcases List.mem_cons.1 h with h | h
      · left; right
        have e1 : a = x.1 := congrArg Prod.fst h
        have e2 : b = x.2 := congrArg Prod.snd h
        subst e1 e2
        exact ⟨h', rfl, rfl⟩
      · exact .inr ⟨h, h'⟩

theorem pair_going {d : P} {ps : Mesh P} {smV smF base : Nat} {reg : List (Nat × Nat)} {cut : Nat × Nat → List Nat} {m : Mesh P} (sort : List Nat → List Nat)
    (inside : Nat → Nat → Nat → Bool) (T : Task d ps smV smF base reg cut m (Wanted sort inside cut)) {k : Nat × Nat}
    (hp : 2 < (cut k).length → (sort (cut k)).Perm (cut k)) {D : Nat → Nat → Prop} {st : St P} (p : Going d m (Wanted sort inside cut) D st) :
    ∃ st', pairEdges ps base reg sort inside cut st k = some st' ∧ Going d m (Wanted sort inside cut) (fun a b => D a b ∨ Wanted sort inside cut k a b) st' := by
  have hnd : (cut k).Nodup := (T.K.sorted k).imp (fun h => by omega)
  have few : (cut k).length < 2 → ∀ a b, ¬ Wanted sort inside cut k a b := by
    intro h a b hw
    rcases hw with hw | ⟨hw, -⟩
    · rw [hw] at h; simp at h
    · omega
  unfold pairEdges
  match hc : cut k with
  | [] =>
    refine ⟨st, rfl, p.mono ?_⟩
    rintro a b (h | h)
    · exact h
    · exact absurd h (few (by rw [hc]; simp) a b)
  | [_] =>
    refine ⟨st, rfl, p.mono ?_⟩
    rintro a b (h | h)
    · exact h
    · exact absurd h (few (by rw [hc]; simp) a b)
  | [v, w] =>
    obtain ⟨st', e, q⟩ := two_going T p (k := k) (v := v) (w := w) (.inl hc)
    refine ⟨st', e, q.mono ?_⟩
    rintro a b (h | h)
    · exact .inl h
    · rcases h with h | ⟨h, -⟩
      · rw [hc] at h
        injection h with h1 h2
        injection h2 with h2 _
        exact .inr ⟨h1.symm, h2.symm⟩
      · rw [hc] at h; simp at h
  | a :: b :: c :: l =>
    have hlen : 2 < (cut k).length := by rw [hc]; simp
    simp only
    rw [← hc]
    have hp' := hp hlen
    generalize hs : sort (cut k) = s at hp'
    have hsn : s.Nodup := hp'.nodup_iff.2 hnd
    obtain ⟨st', e, q⟩ := links_going T (k := k) inside (s.zip s.tail) D st p (by
      rintro ⟨v, w⟩ hx
      rw [mem_zip_tail] at hx
      obtain ⟨l1, l2, rfl⟩ := hx
      refine ⟨?_, hp'.mem_iff.1 (by simp), hp'.mem_iff.1 (by simp), fun h => .inr ⟨hlen, ⟨l1, l2, hs⟩, h.1, h.2⟩⟩
      simp only
      rw [List.nodup_append] at hsn
      have := hsn.2.1
      rw [List.nodup_cons] at this
      intro e
      exact this.1 (by simp [e]))
    refine ⟨st', e, q.mono ?_⟩
    rintro a b (h | h)
    · exact .inl h
    · rcases h with h | ⟨-, ⟨l1, l2, h⟩, h'⟩
      · rw [h] at hlen; simp at hlen
      · right
        rw [mem_zip_tail]
        exact ⟨⟨l1, l2, by rw [← hs, h]⟩, h'⟩

theorem pairs_going {d : P} {ps : Mesh P} {smV smF base : Nat} {reg : List (Nat × Nat)} {cut : Nat × Nat → List Nat} {m : Mesh P} (sort : List Nat → List Nat)
    (inside : Nat → Nat → Nat → Bool) (T : Task d ps smV smF base reg cut m (Wanted sort inside cut))
    (hp : ∀ k, 2 < (cut k).length → (sort (cut k)).Perm (cut k)) : ∀ (keys : List (Nat × Nat)) (D : Nat → Nat → Prop) (st : St P),
    Going d m (Wanted sort inside cut) D st → ∃ st', keys.foldlM (pairEdges ps base reg sort inside cut) st = some st' ∧
      Going d m (Wanted sort inside cut) (fun a b => D a b ∨ ∃ k ∈ keys, Wanted sort inside cut k a b) st' := by
  intro keys
  induction keys with
  | nil => intro D st p; exact ⟨st, rfl, p.mono (by simp)⟩
  | cons k keys ih =>
    intro D st p
    obtain ⟨st1, e1, p1⟩ := pair_going sort inside T (hp k) p
    obtain ⟨st2, e2, p2⟩ := ih _ st1 p1
    refine ⟨st2, by rw [List.foldlM_cons, e1]; exact e2, p2.mono ?_⟩
    rintro a b (h | ⟨k', hk', h⟩)
    · exact .inl (.inl h)
    · rcases List.mem_cons.1 hk' with rfl | hk'
      · exact .inl (.inr h)
      · exact .inr ⟨k', hk', h⟩

/-! ## The order along a line -/
section Line
open Mcut.Geom
variable {K : Type*} [Field K] [LinearOrder K] [IsStrictOrderedRing K]

/-- In a list that is sorted strictly by `g`, two elements follow each other iff no value is between theirs. -/
theorem consecutive_iff (g : Nat → K) : ∀ (s : List Nat), s.Pairwise (fun a b => g a < g b) → ∀ v w,
    (∃ l1 l2, s = l1 ++ v :: w :: l2) ↔ (v ∈ s ∧ w ∈ s ∧ g v < g w ∧ ∀ u ∈ s, ¬ (g v < g u ∧ g u < g w)) := by
  intro s hs v w
  constructor
  · rintro ⟨l1, l2, rfl⟩
    rw [List.pairwise_append] at hs
    obtain ⟨-, h2, h3⟩ := hs
    rw [List.pairwise_cons, List.pairwise_cons] at h2
    obtain ⟨h2, h4, -⟩ := h2
    refine ⟨by simp, by simp, h2 w (by simp), ?_⟩
    rintro u hu ⟨q1, q2⟩
    rcases List.mem_append.1 hu with h | h
    · exact lt_asymm q1 (h3 u h v (by simp))
    · rcases List.mem_cons.1 h with rfl | h
      · exact lt_irrefl _ q1
      · rcases List.mem_cons.1 h with rfl | h
        · exact lt_irrefl _ q2
        · exact lt_asymm q2 (h4 u h)
  · rintro ⟨hv, hw, hvw, hno⟩
    obtain ⟨l1, r, rfl⟩ := List.append_of_mem hv
    rw [List.pairwise_append] at hs
    obtain ⟨-, h2, h3⟩ := hs
    rw [List.pairwise_cons] at h2
    have hw' : w ∈ r := by
      rcases List.mem_append.1 hw with h | h
      · exact absurd (h3 w h v (by simp)) (lt_asymm hvw)
      · rcases List.mem_cons.1 h with rfl | h
        · exact absurd hvw (lt_irrefl _)
        · exact h
    cases r with
    | nil => simp at hw'
    | cons a r =>
      rw [List.pairwise_cons] at h2
      rcases List.mem_cons.1 hw' with rfl | h
      · exact ⟨l1, r, rfl⟩
      · exact absurd ⟨h2.1 a (by simp), h2.2.1 w h⟩ (hno a (by simp))

/-- The points of a list on a line have parameters; the projection is linear in them. -/
theorem projection_line {scale : V3 K → K} (hsc : ∀ v, v ≠ ⟨0, 0, 0⟩ → 0 < scale v) {pos : Nat → V3 K} {o q : Nat} {l : List Nat}
    (hl : OnOneLine pos (o :: q :: l)) (hd : ∀ v ∈ o :: q :: l, ∀ w ∈ o :: q :: l, pos v = pos w → v = w) (hoq : o ≠ q) :
    ∃ (t : Nat → K) (c b : K) (u a : V3 K), c ≠ 0 ∧ (u.x * u.x + u.y * u.y + u.z * u.z ≠ 0) ∧
      (∀ v ∈ o :: q :: l, (pos v).x = a.x + t v * u.x ∧ (pos v).y = a.y + t v * u.y ∧ (pos v).z = a.z + t v * u.z) ∧
      ∀ v ∈ o :: q :: l, dot (sub3 (pos o) (pos v)) (unit scale (sub3 (pos o) (pos q))) = b + c * t v := by
  classical
  obtain ⟨a, u, h⟩ := hl
  choose! t ht using h
  have ho := ht o (by simp)
  have hq := ht q (by simp)
  have hne : pos o ≠ pos q := fun e => hoq (hd o (by simp) q (by simp) e)
  have hz : sub3 (pos o) (pos q) ≠ ⟨0, 0, 0⟩ := by
    intro e
    apply hne
    unfold sub3 at e
    injection e with e1 e2 e3
    ext <;> linarith
  have hs := hsc _ hz
  have htne : t o - t q ≠ 0 := by
    intro e
    apply hne
    have e : t o = t q := by linarith
    ext
    · rw [ho.1, hq.1, e]
    · rw [ho.2.1, hq.2.1, e]
    · rw [ho.2.2, hq.2.2, e]
  have hu : u.x * u.x + u.y * u.y + u.z * u.z ≠ 0 := by
    intro e
    apply hne
    have x0 : u.x * u.x = 0 := by nlinarith [mul_self_nonneg u.x, mul_self_nonneg u.y, mul_self_nonneg u.z]
    have y0 : u.y * u.y = 0 := by nlinarith [mul_self_nonneg u.x, mul_self_nonneg u.y, mul_self_nonneg u.z]
    have z0 : u.z * u.z = 0 := by nlinarith [mul_self_nonneg u.x, mul_self_nonneg u.y, mul_self_nonneg u.z]
    have x0 := mul_self_eq_zero.1 x0
    have y0 := mul_self_eq_zero.1 y0
    have z0 := mul_self_eq_zero.1 z0
    ext
    · rw [ho.1, hq.1, x0]; simp
    · rw [ho.2.1, hq.2.1, y0]; simp
    · rw [ho.2.2, hq.2.2, z0]; simp
  generalize hS : scale (sub3 (pos o) (pos q)) = S at *
  refine ⟨t, -(S * (t o - t q) * (u.x * u.x + u.y * u.y + u.z * u.z)), S * (t o - t q) * (u.x * u.x + u.y * u.y + u.z * u.z) * t o, u, a, ?_, hu, ht, ?_⟩
  · rw [neg_ne_zero]
    exact mul_ne_zero (mul_ne_zero hs.ne' htne) hu
  · intro v hv
    obtain ⟨v1, v2, v3⟩ := ht v hv
    unfold dot unit
    rw [hS]
    unfold sub3
    simp only
    rw [v1, v2, v3, ho.1, ho.2.1, ho.2.2, hq.1, hq.2.1, hq.2.2]
    ring

/-- On a line, a point is strictly between two others iff its parameter is. -/
theorem between_iff {pos : Nat → V3 K} {t : Nat → K} {u a : V3 K} (hu : u.x * u.x + u.y * u.y + u.z * u.z ≠ 0) {l : List Nat}
    (ht : ∀ v ∈ l, (pos v).x = a.x + t v * u.x ∧ (pos v).y = a.y + t v * u.y ∧ (pos v).z = a.z + t v * u.z) {v x w : Nat} (hv : v ∈ l) (hx : x ∈ l) (hw : w ∈ l)
    (hvw : t v ≠ t w) : StrictlyBetween (pos v) (pos x) (pos w) ↔ (t v < t x ∧ t x < t w) ∨ (t w < t x ∧ t x < t v) := by
  obtain ⟨v1, v2, v3⟩ := ht v hv
  obtain ⟨x1, x2, x3⟩ := ht x hx
  obtain ⟨w1, w2, w3⟩ := ht w hw
  unfold StrictlyBetween
  rw [v1, v2, v3, x1, x2, x3, w1, w2, w3]
  constructor
  · rintro ⟨s, s0, s1, e1, e2, e3⟩
    have key : t x = t v + s * (t w - t v) := by
      have : (t x - (t v + s * (t w - t v))) * (u.x * u.x + u.y * u.y + u.z * u.z) = 0 := by linear_combination u.x * e1 + u.y * e2 + u.z * e3
      rcases mul_eq_zero.1 this with h | h
      · linarith
      · exact absurd h hu
    rw [key]
    rcases lt_or_gt_of_ne hvw with h | h
    · left
      have h' : 0 < t w - t v := by linarith
      constructor
      · nlinarith
      · nlinarith
    · right
      have h' : 0 < t v - t w := by linarith
      constructor
      · nlinarith
      · nlinarith
  · intro h
    have hne : t w - t v ≠ 0 := fun e => hvw (by linarith)
    refine ⟨(t x - t v) / (t w - t v), ?_, ?_, ?_, ?_, ?_⟩
    · rcases h with ⟨h1, h2⟩ | ⟨h1, h2⟩
      · exact div_pos (by linarith) (by linarith)
      · exact div_pos_of_neg_of_neg (by linarith) (by linarith)
    · rcases h with ⟨h1, h2⟩ | ⟨h1, h2⟩
      · rw [div_lt_one (by linarith)]; linarith
      · rw [div_lt_one_of_neg (by linarith)]; linarith
    · field_simp; ring
    · field_simp; ring
    · field_simp; ring

/-- The sorted list by its projections. -/
theorem projectionSort_spec {scale : V3 K → K} (hsc : ∀ v, v ≠ ⟨0, 0, 0⟩ → 0 < scale v) {sort : List (Nat × K) → List (Nat × K)} (hsort : Sorts sort)
    {pos : Nat → V3 K} {l : List Nat} (h2 : 2 ≤ l.length) (hn : l.Nodup) (hl : OnOneLine pos l) (hd : ∀ v ∈ l, ∀ w ∈ l, pos v = pos w → v = w) :
    (projectionSort scale pos sort l).Perm l ∧ ∃ (t : Nat → K) (c : K) (u a : V3 K), c ≠ 0 ∧ (u.x * u.x + u.y * u.y + u.z * u.z ≠ 0) ∧
      (∀ v ∈ l, (pos v).x = a.x + t v * u.x ∧ (pos v).y = a.y + t v * u.y ∧ (pos v).z = a.z + t v * u.z) ∧
      (projectionSort scale pos sort l).Pairwise (fun v w => c * t v < c * t w) := by
  match l, h2 with
  | o :: q :: l, _ =>
    obtain ⟨t, c, b, u, a, hc, hu, ht, hp⟩ := projection_line hsc hl hd (by rintro rfl; simp at hn)
    unfold projectionSort
    obtain ⟨s1, s2⟩ := hsort (projections scale pos o q (o :: q :: l))
    have hperm : ((sort (projections scale pos o q (o :: q :: l))).map Prod.fst).Perm (o :: q :: l) := by
      refine (s1.map _).trans ?_
      unfold projections
      rw [List.map_map]
      have : (Prod.fst ∘ fun i => (i, dot (sub3 (pos o) (pos i)) (unit scale (sub3 (pos o) (pos q))))) = (id : Nat → Nat) := rfl
      rw [this, List.map_id]
    refine ⟨hperm, t, c, u, a, hc, hu, ht, ?_⟩
    have hval : ∀ x ∈ sort (projections scale pos o q (o :: q :: l)), x.1 ∈ o :: q :: l ∧ x.2 = b + c * t x.1 := by
      intro x hx
      have hx := s1.mem_iff.1 hx
      unfold projections at hx
      rw [List.mem_map] at hx
      obtain ⟨i, hi, rfl⟩ := hx
      exact ⟨hi, hp i hi⟩
    have hnd : ((sort (projections scale pos o q (o :: q :: l))).map Prod.fst).Nodup := hperm.nodup_iff.2 hn
    rw [List.pairwise_map]
    have hnd' : (sort (projections scale pos o q (o :: q :: l))).Pairwise (fun x y => x.1 ≠ y.1) := List.pairwise_map.1 hnd
    refine (s2.and hnd').imp_of_mem ?_
    rintro x y hx hy ⟨h1, h2⟩
    obtain ⟨mx, ex⟩ := hval x hx
    obtain ⟨my, ey⟩ := hval y hy
    rw [ex, ey] at h1
    rw [not_lt] at h1
    have h1 : c * t x.1 ≤ c * t y.1 := by linarith
    refine lt_of_le_of_ne h1 (fun e => h2 (hd _ mx _ my ?_))
    have e : t x.1 = t y.1 := mul_left_cancel₀ hc e
    obtain ⟨p1, p2, p3⟩ := ht _ mx
    obtain ⟨q1, q2, q3⟩ := ht _ my
    ext
    · rw [p1, q1, e]
    · rw [p2, q2, e]
    · rw [p3, q3, e]

theorem middle_comm (a b : V3 K) : middle a b = middle b a := by
  unfold middle; rw [add_comm a.x, add_comm a.y, add_comm a.z]

theorem middle_halfway (a b : V3 K) : middle a b = halfway a b := by
  have h2 : (2 : K) ≠ 0 := two_ne_zero
  unfold middle halfway
  ext
  · field_simp; ring
  · field_simp; ring
  · field_simp; ring

end Line
end Mcut.CutEdges
