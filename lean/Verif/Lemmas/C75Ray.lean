import Verif.Lemmas.C75Closed

/-! C75: the winding number counts the crossings of a ray. -/
namespace Mcut.Winding
open Mcut.Hmesh Mcut.Dispatch

theorem antisymmetric_sum {l : List (Nat × Nat)} (hl : (l.map Prod.swap).Perm l) (θ : Nat × Nat → ℝ) (hθ : ∀ s ∈ l, θ s.swap = -θ s) : (l.map θ).sum = 0 := by
  have h1 : (l.map θ).sum = ((l.map Prod.swap).map θ).sum := ((hl.map θ).sum_eq).symm
  have h2 : ((l.map Prod.swap).map θ).sum = -(l.map θ).sum := by
    rw [List.map_map]
    have : l.map (θ ∘ Prod.swap) = l.map (fun s => -θ s) := List.map_congr_left (fun s hs => hθ s hs)
    rw [this]
    clear this h1 hθ hl
    induction l with
    | nil => simp
    | cons x l ih => rw [List.map_cons, List.map_cons, List.sum_cons, List.sum_cons, ih]; ring
  linarith

/-- The opposite of a direction. -/
def neg (d : Vec) : Vec := ⟨-d.x, -d.y, -d.z⟩

theorem generic_side {a b q d : Vec} (hd : d.x ≠ 0 ∨ d.y ≠ 0 ∨ d.z ≠ 0) (h : ∀ t : ℝ, 0 ≤ t → ¬InSegment a b (ray q d t)) : ¬Zero3 (neg d) (sub a q) (sub b q) := by
  rintro ⟨ν, α, β, h0, h1, h2, h3, hx, hy, hz⟩
  simp only [neg, sub] at hx hy hz
  by_cases hs : α + β = 0
  · have a0 : α = 0 := by linarith
    have b0 : β = 0 := by linarith
    subst a0; subst b0
    have : 0 < ν := by linarith
    rcases hd with hd | hd | hd
    · apply hd; have : ν * d.x = 0 := by linarith
      rcases mul_eq_zero.1 this with e | e <;> [linarith; exact e]
    · apply hd; have : ν * d.y = 0 := by linarith
      rcases mul_eq_zero.1 this with e | e <;> [linarith; exact e]
    · apply hd; have : ν * d.z = 0 := by linarith
      rcases mul_eq_zero.1 this with e | e <;> [linarith; exact e]
  · have p : 0 < α + β := lt_of_le_of_ne (by linarith) (Ne.symm hs)
    apply h (ν / (α + β)) (by positivity)
    refine ⟨α / (α + β), β / (α + β), by positivity, by positivity, by field_simp, ?_⟩
    unfold ray
    ext <;> simp only <;> field_simp <;> linarith

theorem hits_iff {a b c q d : Vec} (hd : d.x ≠ 0 ∨ d.y ≠ 0 ∨ d.z ≠ 0) : Hits q d a b c ↔ Zero4 (neg d) (sub a q) (sub b q) (sub c q) := by
  constructor
  · rintro ⟨t, ht, α, β, γ, h1, h2, h3, h4, e⟩
    refine ⟨t, α, β, γ, ht, h1, h2, h3, by linarith, ?_, ?_, ?_⟩
    · have := congrArg Geom.V3.x e
      simp only [ray] at this
      simp only [neg, sub]
      linear_combination (-1) * this - q.x * h4
    · have := congrArg Geom.V3.y e
      simp only [ray] at this
      simp only [neg, sub]
      linear_combination (-1) * this - q.y * h4
    · have := congrArg Geom.V3.z e
      simp only [ray] at this
      simp only [neg, sub]
      linear_combination (-1) * this - q.z * h4
  · rintro ⟨ν, α, β, γ, h0, h1, h2, h3, h4, hx, hy, hz⟩
    simp only [neg, sub] at hx hy hz
    by_cases hs : α + β + γ = 0
    · exfalso
      have a0 : α = 0 := by linarith
      have b0 : β = 0 := by linarith
      have c0 : γ = 0 := by linarith
      subst a0; subst b0; subst c0
      have : 0 < ν := by linarith
      rcases hd with hd | hd | hd
      · apply hd; have : ν * d.x = 0 := by linarith
        rcases mul_eq_zero.1 this with e | e <;> [linarith; exact e]
      · apply hd; have : ν * d.y = 0 := by linarith
        rcases mul_eq_zero.1 this with e | e <;> [linarith; exact e]
      · apply hd; have : ν * d.z = 0 := by linarith
        rcases mul_eq_zero.1 this with e | e <;> [linarith; exact e]
    · have p : 0 < α + β + γ := lt_of_le_of_ne (by linarith) (Ne.symm hs)
      refine ⟨ν / (α + β + γ), by positivity, α / (α + β + γ), β / (α + β + γ), γ / (α + β + γ), by positivity, by positivity, by positivity, by field_simp, ?_⟩
      unfold ray
      ext <;> simp only <;> field_simp <;> linarith

theorem hit_sign {a b c q d : Vec} (h : Zero4 (neg d) (sub a q) (sub b q) (sub c q)) (h0 : ¬Zero3 (sub a q) (sub b q) (sub c q)) (h1 : ¬Zero3 (neg d) (sub a q) (sub b q))
    (h2 : ¬Zero3 (neg d) (sub b q) (sub c q)) (h3 : ¬Zero3 (neg d) (sub c q) (sub a q)) :
    ∃ r : ℝ, 0 < r ∧ dot d (normal a b c) = r * det (sub a q) (sub b q) (sub c q) := by
  obtain ⟨α, β, γ, pa, pb, pc, e1, e2, e3⟩ := tetra_signs h h0 h1 h2 h3
  refine ⟨α + β + γ, by linarith, ?_⟩
  have : dot d (normal a b c) = -(det (neg d) (sub b q) (sub c q) + det (neg d) (sub c q) (sub a q) + det (neg d) (sub a q) (sub b q)) := by
    unfold det dot normal cross sub neg; ring
  rw [this, e1, e2, e3]; ring

/-- One triangle. -/
theorem turn_crossing {a b c q d : Vec} (hd : d.x ≠ 0 ∨ d.y ≠ 0 ∨ d.z ≠ 0) (h0 : ¬Zero3 (sub a q) (sub b q) (sub c q)) (h1 : ¬Zero3 (neg d) (sub a q) (sub b q))
    (h2 : ¬Zero3 (neg d) (sub b q) (sub c q)) (h3 : ¬Zero3 (neg d) (sub c q) (sub a q)) :
    (Z (sub a q) (sub b q) (sub c q)).arg = (Z (neg d) (sub a q) (sub b q)).arg + (Z (neg d) (sub b q) (sub c q)).arg + (Z (neg d) (sub c q) (sub a q)).arg +
      (crossing q d a b c : ℝ) * (2 * Real.pi) := by
  unfold crossing
  by_cases hh : Hits q d a b c
  · rw [if_pos hh]
    have h4 := (hits_iff hd).1 hh
    obtain ⟨r, pr, er⟩ := hit_sign h4 h0 h1 h2 h3
    rcases lt_trichotomy (det (sub a q) (sub b q) (sub c q)) 0 with hs | hs | hs
    · have : dot d (normal a b c) < 0 := by rw [er]; nlinarith [mul_pos pr (neg_pos.2 hs)]
      rw [if_neg (by linarith), if_pos this, tetra_neg h4 h0 h1 h2 h3 hs]
      push_cast; ring
    · rw [hs, mul_zero] at er
      rw [if_neg (by linarith), if_neg (by linarith), tetra_flat h4 h0 h1 h2 h3 hs]
      push_cast; ring
    · have : 0 < dot d (normal a b c) := by rw [er]; exact mul_pos pr hs
      rw [if_pos this, tetra_pos h4 h0 h1 h2 h3 hs]
      push_cast; ring
  · rw [if_neg hh, tetra_out (fun e => hh ((hits_iff hd).2 e))]
    push_cast; ring

theorem sum_crossing (p : Nat → Vec) (q d : Vec) (θ : Nat × Nat → ℝ) : ∀ ts : List (Nat × Nat × Nat),
    (∀ t ∈ ts, (Z (sub (p t.1) q) (sub (p t.2.1) q) (sub (p t.2.2) q)).arg = θ (t.1, t.2.1) + θ (t.2.1, t.2.2) + θ (t.2.2, t.1) + (crossing q d (p t.1) (p t.2.1) (p t.2.2) : ℝ) * (2 * Real.pi)) →
    (ts.map (fun t => (Z (sub (p t.1) q) (sub (p t.2.1) q) (sub (p t.2.2) q)).arg)).sum =
      ((sides ts).map θ).sum + (((ts.map (fun t => crossing q d (p t.1) (p t.2.1) (p t.2.2))).sum : ℤ) : ℝ) * (2 * Real.pi)
  | [], _ => by simp [sides]
  | t :: ts, h => by
    have e : sides (t :: ts) = [(t.1, t.2.1), (t.2.1, t.2.2), (t.2.2, t.1)] ++ sides ts := rfl
    rw [List.map_cons, List.sum_cons, sum_crossing p q d θ ts (fun u hu => h u (List.mem_cons_of_mem _ hu)), h t List.mem_cons_self, e, List.map_append, List.sum_append, List.map_cons, List.sum_cons]
    push_cast
    simp only [List.map_cons, List.map_nil, List.sum_cons, List.sum_nil]
    ring

theorem mem_sides {ts : List (Nat × Nat × Nat)} {t : Nat × Nat × Nat} (h : t ∈ ts) : (t.1, t.2.1) ∈ sides ts ∧ (t.2.1, t.2.2) ∈ sides ts ∧ (t.2.2, t.1) ∈ sides ts := by
  unfold sides
  refine ⟨?_, ?_, ?_⟩ <;> exact List.mem_flatMap.2 ⟨t, h, by simp⟩

/-- The winding number is the number of times a ray leaves minus the number of times it enters. -/
theorem ray_count {b : Body} (hp : Proper b) (hc : b.mesh.isClosed = true) {q d : Vec} (h : ¬OnSurface b q) (g : Generic b q d) : b.winding q = crossings b q d := by
  obtain ⟨d0, hr⟩ := hp.reachable
  rw [winding_eq hr h]
  let θ : Nat × Nat → ℝ := fun s => (Z (neg d) (sub (b.mesh.pos s.1) q) (sub (b.mesh.pos s.2) q)).arg
  have side : ∀ s ∈ sides (triangles b), ¬Zero3 (neg d) (sub (b.mesh.pos s.1) q) (sub (b.mesh.pos s.2) q) := fun s hs => generic_side g.1 (g.2 s hs)
  have S := sum_crossing b.mesh.pos q d θ (triangles b) (by
    intro t ht
    obtain ⟨m1, m2, m3⟩ := mem_sides ht
    exact turn_crossing g.1 (turn_off h ht) (side _ m1) (side _ m2) (side _ m3))
  have A := antisymmetric_sum (balanced hp hc) θ (fun s hs => arg_swap (side s hs))
  rw [A, zero_add] at S
  unfold crossings turn
  rw [S]
  have := Real.pi_pos
  field_simp

end Mcut.Winding
