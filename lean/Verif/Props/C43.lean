import Verif.Lemmas.C43Pip
import Verif.Props.C58

/-!
# C43: the point-in-polygon test

Exact arithmetic over any ordered field; polygons are arbitrary lists of points (also self-intersecting ones).
-/
namespace Mcut.Geom

variable {K : Type*} [Field K] [LinearOrder K] [IsStrictOrderedRing K]

/-- The answer is "vertex" exactly if the point is a vertex. -/
theorem C43_vertex (q : V2 K) (poly : List (V2 K)) : pointInPolygon q poly = .vertex ↔ q ∈ poly := by
  rw [pip_eq]
  constructor
  · intro h
    by_contra hc
    rw [if_neg hc] at h
    split at h
    · cases h
    · split at h <;> cases h
  · intro h; rw [if_pos h]

/-- The answer does not depend on the vertex the polygon starts with. -/
theorem C43_rotate (q : V2 K) (xs ys : List (V2 K)) : pointInPolygon q (xs ++ ys) = pointInPolygon q (ys ++ xs) := by
  rw [pip_eq, pip_eq]
  unfold Rc Lc
  rw [cycCount_rotate, cycCount_rotate _ xs ys]
  have : q ∈ xs ++ ys ↔ q ∈ ys ++ xs := by rw [List.mem_append, List.mem_append, or_comm]
  simp only [this]

/-- The answer does not depend on the direction of the polygon. -/
theorem C43_reverse (q : V2 K) (poly : List (V2 K)) : pointInPolygon q poly.reverse = pointInPolygon q poly := by
  rw [pip_eq, pip_eq]
  unfold Rc Lc
  rw [cycCount_reverse _ (fun a b => isR_symm _ _), cycCount_reverse _ (fun a b => isL_symm _ _)]
  simp only [List.mem_reverse]

/-- The answer is "edge" exactly if the point is no vertex and the number of edges it lies on is odd. -/
theorem C43_edge (q : V2 K) (poly : List (V2 K)) :
    pointInPolygon q poly = .edge ↔ q ∉ poly ∧ howMany (fun e : V2 K × V2 K => OnSeg e.1 e.2 q) (edgesOf poly) % 2 = 1 := by
  rw [pip_eq]
  by_cases h : q ∈ poly
  · rw [if_pos h]; exact ⟨fun h' => (by cases h'), fun h' => absurd h h'.1⟩
  · rw [if_neg h, Oc_eq h]
    have := parity_sum h
    constructor
    · intro h'
      refine ⟨h, ?_⟩
      by_contra hc
      rw [if_neg (by omega)] at h'
      split at h' <;> cases h'
    · rintro ⟨_, h'⟩; rw [if_pos (by omega)]

/-- A point off the boundary is never reported on it. -/
theorem C43_off_boundary {q : V2 K} {poly : List (V2 K)} (h : ¬ OnBoundary q poly) :
    pointInPolygon q poly = .inside ∨ pointInPolygon q poly = .outside := by
  rw [off_cases h]; split
  · exact Or.inl rfl
  · exact Or.inr rfl

/-- The crossing parity for any point off the boundary: if the ray to the right is moved up a little (so that it meets no vertex), the answer is
"inside" exactly if an odd number of edges meet it. -/
theorem C43_parity {q : V2 K} {poly : List (V2 K)} (h : ¬ OnBoundary q poly) :
    ∃ ε : K, 0 < ε ∧ ∀ δ, 0 < δ → δ < ε →
      (pointInPolygon q poly = .inside ↔
        howMany (fun e : V2 K × V2 K => ∃ p, OnSeg e.1 e.2 p ∧ OnRay ⟨q.x, q.y + δ⟩ p) (edgesOf poly) % 2 = 1) := by
  have hv : q ∉ poly := fun hv => h (vertex_on_boundary hv)
  obtain ⟨ε, h0, hε⟩ := eps_list (P := fun e δ => isR (sh q e.1) (sh q e.2) = true ↔ Meets δ (sh q e.1) (sh q e.2)) (edgesOf poly) (by
    intro e he
    obtain ⟨m1, m2⟩ := mem_edgesOf he
    have n1 : e.1 ≠ q := fun h' => hv (h' ▸ m1)
    have n2 : e.2 ≠ q := fun h' => hv (h' ▸ m2)
    refine isR_meets (fun h' => n1 (sh_zero.1 h')) (fun h' => n2 (sh_zero.1 h')) ?_
    rw [Bool.eq_false_iff]
    exact fun h' => h ⟨e, he, (isOn_sh n1 n2).2 h'⟩)
  refine ⟨ε, h0, fun δ d0 d1 => ?_⟩
  have : howMany (fun e : V2 K × V2 K => ∃ p, OnSeg e.1 e.2 p ∧ OnRay ⟨q.x, q.y + δ⟩ p) (edgesOf poly) = Rc q poly := by
    apply howMany_cyc
    intro e he
    rw [on_ray_iff]; exact (hε e he δ d0 d1).symm
  rw [this, off_cases h]
  constructor
  · intro h'; by_contra hc; rw [if_neg hc] at h'; cases h'
  · intro h'; rw [if_pos h']

/-- If no vertex is at the height of the point, the ray need not be moved. -/
theorem C43_parity_generic {q : V2 K} {poly : List (V2 K)} (h : ¬ OnBoundary q poly) (hy : ∀ v ∈ poly, v.y ≠ q.y) :
    pointInPolygon q poly = .inside ↔
      howMany (fun e : V2 K × V2 K => ∃ p, OnSeg e.1 e.2 p ∧ OnRay q p) (edgesOf poly) % 2 = 1 := by
  have : howMany (fun e : V2 K × V2 K => ∃ p, OnSeg e.1 e.2 p ∧ OnRay q p) (edgesOf poly) = Rc q poly := by
    apply howMany_cyc
    intro e he
    obtain ⟨m1, m2⟩ := mem_edgesOf he
    have := on_ray_iff (q := q) (a := e.1) (b := e.2) (h := 0)
    rw [add_zero] at this
    rw [this]
    exact (isR_meets_zero (by unfold sh; exact sub_ne_zero.2 (hy _ m1)) (by unfold sh; exact sub_ne_zero.2 (hy _ m2))).symm
  rw [this, off_cases h]
  constructor
  · intro h'; by_contra hc; rw [if_neg hc] at h'; cases h'
  · intro h'; rw [if_pos h']

/-- Inside and outside without rays: "inside" exactly if the number of triangles, cut off from the first vertex, that contain the point is odd. -/
theorem C43_fan {q v0 : V2 K} {rest : List (V2 K)} (h : ¬ OnBoundary q (v0 :: rest)) (hd : ∀ v ∈ rest, ¬ OnSeg v0 v q) :
    pointInPolygon q (v0 :: rest) = .inside ↔
      howMany (fun t : V2 K × V2 K × V2 K => StrictlyInside t.1 t.2.1 t.2.2 q) (fan (v0 :: rest)) % 2 = 1 := by
  have hz : isR (sh q v0) (sh q v0) = false := by
    by_cases h0 : 0 < (sh q v0).y
    · exact isR_up_up h0 h0
    · exact isR_down_down (not_lt.1 h0) (not_lt.1 h0)
  have hfan := (cycCount_fan (fun a b => isR (sh q a) (sh q b)) (fun a b => isR_symm _ _) v0 rest).trans (b := _) (c := 0) (by
    cases rest with
    | nil => simp [hz]
    | cons a l => cases l <;> rfl)
  have hsum : ((fan (v0 :: rest)).map (fun t => cycCount (fun a b => isR (sh q a) (sh q b)) [t.1, t.2.1, t.2.2])).sum % 2 =
      howMany (fun t : V2 K × V2 K × V2 K => StrictlyInside t.1 t.2.1 t.2.2 q) (fan (v0 :: rest)) % 2 := by
    apply sum_parity
    intro t ht
    simp only [fan, List.mem_map] at ht
    obtain ⟨e, he, rfl⟩ := ht
    have hm := List.of_mem_zip (a := e.1) (b := e.2) he
    have h1 := hm.1
    have h2 := List.mem_of_mem_tail hm.2
    refine tri_cyc (hd _ h1) ?_ (fun h' => hd _ h2 (onSeg_symm h'))
    intro h'
    refine h ⟨e, ?_, h'⟩
    unfold edgesOf
    simp only [List.tail_cons, List.take_succ_cons, List.take_zero]
    rw [zip_tail_append]
    refine List.mem_append.2 (Or.inl ?_)
    cases rest with
    | nil => simp at he
    | cons a l => simp only [List.tail_cons] at he; rw [List.zip_cons_cons]; exact List.mem_cons_of_mem _ he
  rw [← hsum, off_cases h]
  change _ ↔ _
  have : Rc q (v0 :: rest) = cycCount (fun a b => isR (sh q a) (sh q b)) (v0 :: rest) := rfl
  rw [this]
  constructor
  · intro h'
    by_contra hc
    rw [if_neg (by omega)] at h'; cases h'
  · intro h'; rw [if_pos (by omega)]

/-- A triangle: "inside" exactly for the points of the open triangle. -/
theorem C43_triangle {a b c q : V2 K} (h : ¬ OnBoundary q [a, b, c]) :
    pointInPolygon q [a, b, c] = .inside ↔ StrictlyInside a b c q := by
  have e : edgesOf [a, b, c] = [(a, b), (b, c), (c, a)] := rfl
  have h1 : ¬ OnSeg a b q := fun h' => h ⟨(a, b), by rw [e]; simp, h'⟩
  have h3 : ¬ OnSeg a c q := fun h' => h ⟨(c, a), by rw [e]; simp, onSeg_symm h'⟩
  rw [C43_fan h (by
    intro v hv
    rcases List.mem_cons.1 hv with rfl | hv
    · exact h1
    · rw [List.mem_singleton] at hv; subst hv; exact h3)]
  have hf : fan [a, b, c] = [(a, b, c)] := rfl
  rw [hf]
  unfold howMany
  by_cases hs : StrictlyInside a b c q <;> simp [hs]

/-- A point that a line separates from all vertices is reported outside. -/
theorem C43_outside {q : V2 K} {poly : List (V2 K)} (h : OneSide q poly) : pointInPolygon q poly = .outside := by
  cases poly with
  | nil => rw [pip_eq]; simp [Rc, Lc, cycCount]
  | cons v0 rest =>
    obtain ⟨u, w, hp⟩ := h
    have hseg : ∀ a ∈ v0 :: rest, ∀ b ∈ v0 :: rest, ¬ OnSeg a b q := by
      rintro a ha b hb ⟨t, t0, t1, he⟩
      have p1 := hp a ha; have p2 := hp b hb
      have hx := congrArg V2.x he; have hy := congrArg V2.y he
      simp only [lerp] at hx hy
      have m1 := mul_nonneg t0 p2.le
      have m2 := mul_nonneg (sub_nonneg.2 t1) p1.le
      have e : (1 - t) * (u * (a.x - q.x) + w * (a.y - q.y)) + t * (u * (b.x - q.x) + w * (b.y - q.y)) = 0 := by
        linear_combination (-u) * hx - w * hy
      rcases eq_or_lt_of_le t0 with rfl | t0
      · rw [sub_zero, one_mul, zero_mul, add_zero] at e; exact absurd e p1.ne'
      · have := mul_pos t0 p2; linarith
    have hb : ¬ OnBoundary q (v0 :: rest) := by
      rintro ⟨e, he, ho⟩
      obtain ⟨m1, m2⟩ := mem_edgesOf he
      exact hseg _ m1 _ m2 ho
    rcases C43_off_boundary hb with hi | ho
    · exfalso
      rw [C43_fan hb (fun v hv => hseg _ (by simp) _ (List.mem_cons_of_mem _ hv))] at hi
      rw [howMany_zero] at hi
      · omega
      · intro t ht hs
        simp only [fan, List.mem_map] at ht
        obtain ⟨e, he, rfl⟩ := ht
        have hm := List.of_mem_zip (a := e.1) (b := e.2) he
        have p0 := hp v0 (by simp)
        have p1 := hp e.1 (List.mem_cons_of_mem _ hm.1)
        have p2 := hp e.2 (List.mem_cons_of_mem _ (List.mem_of_mem_tail hm.2))
        obtain ⟨_, _, k1, k2, k3, g1, g2, g3, hs, hq⟩ := hs
        have hx := congrArg V2.x hq; have hy := congrArg V2.y hq
        simp only at hx hy
        have s := add_pos (add_pos (mul_pos g1 p0) (mul_pos g2 p1)) (mul_pos g3 p2)
        have : k1 * (u * (v0.x - q.x) + w * (v0.y - q.y)) + k2 * (u * (e.1.x - q.x) + w * (e.1.y - q.y)) +
            k3 * (u * (e.2.x - q.x) + w * (e.2.y - q.y)) = 0 := by
          linear_combination (-u) * hx - w * hy - (u * q.x + w * q.y) * hs
        linarith
    · exact ho

/-! ## Polygons in space -/

theorem project_bary (n : V3 K) (l : K) (m : Nat) (a b c : V3 K) {u v w : K} (h : u + v + w = 1) :
    project n l m ⟨u * a.x + v * b.x + w * c.x, u * a.y + v * b.y + w * c.y, u * a.z + v * b.z + w * c.z⟩ =
      ⟨u * (project n l m a).x + v * (project n l m b).x + w * (project n l m c).x,
        u * (project n l m a).y + v * (project n l m b).y + w * (project n l m c).y⟩ := by
  have hu : u = 1 - v - w := by linear_combination h
  subst hu
  unfold project
  simp only
  generalize (⟨n.x / l, n.y / l, n.z / l⟩ : V3 K) = av
  generalize (if comp n m > 0 then 1 else if comp n m < 0 then -1 else 0 : K) = s
  generalize (⟨if m = 0 then s else 0, if m = 1 then s else 0, if m = 2 then s else 0⟩ : V3 K) = bv
  generalize add3 av bv = w
  generalize dot av bv = c
  by_cases hab : av = bv
  · simp only [hab, if_true]
    split
    · apply V2.ext <;> simp only <;> ring
    · split <;> apply V2.ext <;> simp only <;> ring
  · simp only [hab, if_false, dot]
    split
    · apply V2.ext <;> simp only <;> ring
    · split <;> apply V2.ext <;> simp only <;> ring

/-- What the 3D test needs: the length of the normal, the index of a non-zero component, a normal that is not singular (C58), and a polygon and a
point in one plane with this normal. -/
structure Good3 (n : V3 K) (l : K) (m : Nat) (p : V3 K) (poly : List (V3 K)) : Prop where
  len : IsLength n l
  idx : m ≤ 2
  nz : comp n m ≠ 0
  reg : ¬ Singular n m
  plane : ∀ v ∈ poly, SamePlane n v p

theorem Good3.inj {n : V3 K} {l : K} {m : Nat} {p : V3 K} {poly : List (V3 K)} (g : Good3 n l m p poly) {x y : V3 K} (h : SamePlane n x y)
    (he : project n l m x = project n l m y) : x = y := (C58_injective_iff g.len g.idx g.nz).2 g.reg x y h he

theorem onSeg_project {n : V3 K} {l : K} {m : Nat} {p : V3 K} {poly : List (V3 K)} (g : Good3 n l m p poly) {a b : V3 K} (ha : a ∈ poly) (hb : b ∈ poly) :
    OnSeg (project n l m a) (project n l m b) (project n l m p) ↔ OnSeg3 a b p := by
  constructor
  · rintro ⟨t, h0, h1, he⟩
    refine ⟨t, h0, h1, ?_⟩
    rw [← C58_lines] at he
    refine g.inj ?_ he
    have p1 := g.plane a ha; have p2 := g.plane b hb
    unfold SamePlane at *
    unfold lerp3
    simp only
    linear_combination -(1 - t) * p1 - t * p2
  · rintro ⟨t, h0, h1, he⟩
    exact ⟨t, h0, h1, by rw [he, C58_lines]⟩

theorem edgesOf_map {α β : Type*} (f : α → β) (l : List α) : edgesOf (l.map f) = (edgesOf l).map (fun e => (f e.1, f e.2)) := by
  unfold edgesOf
  rw [← List.map_tail, ← List.map_take, ← List.map_append, List.zip_map]
  rfl

theorem howMany_map {α β : Type*} (f : α → β) (P : β → Prop) (l : List α) : howMany P (l.map f) = howMany (fun x => P (f x)) l := by
  unfold howMany; rw [List.countP_map]; rfl

/-- In space: "vertex" exactly if the point is a vertex. -/
theorem C43_space_vertex {n : V3 K} {l : K} {m : Nat} {p : V3 K} {poly : List (V3 K)} (g : Good3 n l m p poly) :
    pointInPolygon3 n l m p poly = .vertex ↔ p ∈ poly := by
  unfold pointInPolygon3
  rw [C43_vertex, List.mem_map]
  constructor
  · rintro ⟨v, hv, he⟩; exact g.inj (g.plane v hv) he ▸ hv
  · intro h; exact ⟨p, h, rfl⟩

/-- In space: "edge" exactly if the point is no vertex and lies on an odd number of edges. -/
theorem C43_space_edge {n : V3 K} {l : K} {m : Nat} {p : V3 K} {poly : List (V3 K)} (g : Good3 n l m p poly) :
    pointInPolygon3 n l m p poly = .edge ↔ p ∉ poly ∧ howMany (fun e : V3 K × V3 K => OnSeg3 e.1 e.2 p) (edgesOf poly) % 2 = 1 := by
  have hv := C43_space_vertex g
  unfold pointInPolygon3 at hv ⊢
  rw [C43_vertex] at hv
  rw [C43_edge, hv, edgesOf_map, howMany_map]
  rw [howMany_congr (Q := fun e : V3 K × V3 K => OnSeg3 e.1 e.2 p)]
  intro e he
  obtain ⟨m1, m2⟩ := mem_edgesOf he
  exact onSeg_project g m1 m2

theorem boundary_project {n : V3 K} {l : K} {m : Nat} {p : V3 K} {poly : List (V3 K)} (g : Good3 n l m p poly) :
    OnBoundary (project n l m p) (poly.map (project n l m)) ↔ ∃ e ∈ edgesOf poly, OnSeg3 e.1 e.2 p := by
  unfold OnBoundary
  rw [edgesOf_map]
  constructor
  · rintro ⟨e, he, ho⟩
    obtain ⟨e', he', rfl⟩ := List.mem_map.1 he
    obtain ⟨m1, m2⟩ := mem_edgesOf he'
    exact ⟨e', he', (onSeg_project g m1 m2).1 ho⟩
  · rintro ⟨e, he, ho⟩
    obtain ⟨m1, m2⟩ := mem_edgesOf he
    exact ⟨_, List.mem_map.2 ⟨e, he, rfl⟩, (onSeg_project g m1 m2).2 ho⟩

/-- In space: the answer does not depend on the first vertex or the direction. -/
theorem C43_space_cyclic (n : V3 K) (l : K) (m : Nat) (p : V3 K) (xs ys : List (V3 K)) :
    pointInPolygon3 n l m p (xs ++ ys) = pointInPolygon3 n l m p (ys ++ xs) ∧
      pointInPolygon3 n l m p xs.reverse = pointInPolygon3 n l m p xs := by
  unfold pointInPolygon3
  rw [List.map_append, List.map_append, C43_rotate, List.map_reverse, C43_reverse]
  exact ⟨rfl, rfl⟩

theorem inside_project {n : V3 K} {l : K} {m : Nat} {p : V3 K} {poly : List (V3 K)} (g : Good3 n l m p poly) {a b c : V3 K}
    (ha : a ∈ poly) (hb : b ∈ poly) (hc : c ∈ poly) :
    StrictlyInside (project n l m a) (project n l m b) (project n l m c) (project n l m p) ↔ StrictlyInside3 a b c p := by
  have pa := g.plane a ha; have pb := g.plane b hb; have pc := g.plane c hc
  unfold SamePlane at pa pb pc
  unfold StrictlyInside StrictlyInside3 NotCollinear3 OnLine3
  have e1 : (project n l m a ≠ project n l m b) ↔ a ≠ b := by
    refine not_congr ⟨fun h => g.inj ?_ h, fun h => by rw [h]⟩
    unfold SamePlane; rw [pa, pb]
  have e2 : (∀ t, project n l m c ≠ lerp (project n l m a) (project n l m b) t) ↔ ¬ ∃ t, c = lerp3 a b t := by
    rw [not_exists]
    refine forall_congr' fun t => not_congr ?_
    rw [← C58_lines]
    refine ⟨fun h => g.inj ?_ h, fun h => by rw [← h]⟩
    unfold SamePlane lerp3; simp only; linear_combination pc - (1 - t) * pa - t * pb
  rw [e1, e2]
  have e3 : (∃ u v w : K, 0 < u ∧ 0 < v ∧ 0 < w ∧ u + v + w = 1 ∧ project n l m p =
      ⟨u * (project n l m a).x + v * (project n l m b).x + w * (project n l m c).x,
        u * (project n l m a).y + v * (project n l m b).y + w * (project n l m c).y⟩) ↔
      ∃ u v w : K, 0 < u ∧ 0 < v ∧ 0 < w ∧ u + v + w = 1 ∧
        p = ⟨u * a.x + v * b.x + w * c.x, u * a.y + v * b.y + w * c.y, u * a.z + v * b.z + w * c.z⟩ := by
    refine exists_congr fun u => exists_congr fun v => exists_congr fun w => ?_
    refine and_congr_right fun _ => and_congr_right fun _ => and_congr_right fun _ => and_congr_right fun hs => ?_
    rw [← project_bary n l m a b c hs]
    refine ⟨fun h => g.inj ?_ h, fun h => congrArg (project n l m) h⟩
    have hu : u = 1 - v - w := by linear_combination hs
    subst hu
    unfold SamePlane; simp only; linear_combination -(1 - v - w) * pa - v * pb - w * pc
  rw [e3]
  exact ⟨fun ⟨h1, h2, h3⟩ => ⟨⟨h2, h1⟩, h3⟩, fun ⟨⟨h2, h1⟩, h3⟩ => ⟨h1, h2, h3⟩⟩

/-- In space: inside and outside of a planar polygon, without rays or projections. -/
theorem C43_space_fan {n : V3 K} {l : K} {m : Nat} {p v0 : V3 K} {rest : List (V3 K)} (g : Good3 n l m p (v0 :: rest))
    (h : ∀ e ∈ edgesOf (v0 :: rest), ¬ OnSeg3 e.1 e.2 p) (hd : ∀ v ∈ rest, ¬ OnSeg3 v0 v p) :
    (pointInPolygon3 n l m p (v0 :: rest) = .inside ↔
      howMany (fun t : V3 K × V3 K × V3 K => StrictlyInside3 t.1 t.2.1 t.2.2 p) (fan (v0 :: rest)) % 2 = 1) ∧
    (pointInPolygon3 n l m p (v0 :: rest) = .inside ∨ pointInPolygon3 n l m p (v0 :: rest) = .outside) := by
  have hb : ¬ OnBoundary (project n l m p) ((v0 :: rest).map (project n l m)) := by
    rw [boundary_project g]; rintro ⟨e, he, ho⟩; exact h e he ho
  refine ⟨?_, C43_off_boundary hb⟩
  unfold pointInPolygon3
  rw [List.map_cons] at hb ⊢
  rw [C43_fan hb (by
    intro v hv
    obtain ⟨v', hv', rfl⟩ := List.mem_map.1 hv
    rw [onSeg_project g (by simp) (List.mem_cons_of_mem _ hv')]
    exact hd v' hv')]
  have hfan : fan (project n l m v0 :: rest.map (project n l m)) =
      (fan (v0 :: rest)).map (fun t => (project n l m t.1, project n l m t.2.1, project n l m t.2.2)) := by
    simp only [fan, List.map_map]
    rw [← List.map_tail, List.zip_map, List.map_map]
    rfl
  rw [hfan, howMany_map]
  rw [howMany_congr (Q := fun t : V3 K × V3 K × V3 K => StrictlyInside3 t.1 t.2.1 t.2.2 p)]
  intro t ht
  simp only [fan, List.mem_map] at ht
  obtain ⟨e, he, rfl⟩ := ht
  have hm := List.of_mem_zip (a := e.1) (b := e.2) he
  exact inside_project g (by simp) (List.mem_cons_of_mem _ hm.1) (List.mem_cons_of_mem _ (List.mem_of_mem_tail hm.2))

/-! ## Concrete cases -/

/-- A polygon with a reflex vertex. -/
def exL : List (V2 ℚ) := [⟨0, 0⟩, ⟨4, 0⟩, ⟨4, 1⟩, ⟨1, 1⟩, ⟨1, 4⟩, ⟨0, 4⟩]

/-- The four answers occur; for the points `(2, 1)` and `(1, 2)` with an edge on the ray or through it. -/
theorem C43_demo : pointInPolygon (⟨1/2, 1⟩ : V2 ℚ) exL = .inside ∧ pointInPolygon (⟨2, 2⟩ : V2 ℚ) exL = .outside ∧
    pointInPolygon (⟨2, 1⟩ : V2 ℚ) exL = .edge ∧ pointInPolygon (⟨1, 1⟩ : V2 ℚ) exL = .vertex ∧
    pointInPolygon (⟨-1, 1⟩ : V2 ℚ) exL = .outside ∧ pointInPolygon (⟨-1, 4⟩ : V2 ℚ) exL = .outside := by decide +kernel

/-- A triangle that meets the hypotheses of the theorems, with a point inside whose ray passes no vertex, and a point outside. -/
theorem C43_demo_hypotheses : ¬ OnBoundary (⟨1, 1⟩ : V2 ℚ) [⟨0, 0⟩, ⟨4, 0⟩, ⟨0, 4⟩] ∧ (∀ v ∈ ([⟨0, 0⟩, ⟨4, 0⟩, ⟨0, 4⟩] : List (V2 ℚ)), v.y ≠ 1) ∧
    StrictlyInside (⟨0, 0⟩ : V2 ℚ) ⟨4, 0⟩ ⟨0, 4⟩ ⟨1, 1⟩ ∧ OneSide (⟨4, 4⟩ : V2 ℚ) [⟨0, 0⟩, ⟨4, 0⟩, ⟨0, 4⟩] ∧
    Good3 (⟨0, 0, 2⟩ : V3 ℚ) 2 2 ⟨1, 1, 5⟩ [⟨0, 0, 5⟩, ⟨4, 0, 5⟩, ⟨0, 4, 5⟩] := by
  refine ⟨?_, ?_, ?_, ?_, ?_⟩
  · rintro ⟨e, he, t, h0, h1, hq⟩
    have hx := congrArg V2.x hq; have hy := congrArg V2.y hq
    simp only [edgesOf, List.tail_cons, List.take_succ_cons, List.take_zero, List.cons_append, List.nil_append, List.zip_cons_cons,
      List.zip_nil_right, List.mem_cons, List.not_mem_nil, or_false] at he
    rcases he with rfl | rfl | rfl <;> simp only [lerp] at hx hy <;> linarith
  · intro v hv
    simp only [List.mem_cons, List.not_mem_nil, or_false] at hv
    rcases hv with rfl | rfl | rfl <;> norm_num
  · refine ⟨fun t h => ?_, by simp, 1/2, 1/4, 1/4, by norm_num, by norm_num, by norm_num, by norm_num, by norm_num⟩
    have hy := congrArg V2.y h
    simp [lerp] at hy
  · refine ⟨-1, -1, fun v hv => ?_⟩
    simp only [List.mem_cons, List.not_mem_nil, or_false] at hv
    rcases hv with rfl | rfl | rfl <;> norm_num
  · refine ⟨⟨by norm_num, by norm_num⟩, by norm_num, by simp [comp], by simp [Singular], fun v hv => ?_⟩
    simp only [List.mem_cons, List.not_mem_nil, or_false] at hv
    rcases hv with rfl | rfl | rfl <;> norm_num [SamePlane]

/-- A point on two edges of a polygon that runs back on itself is not reported on an edge: the parity of the number of edges matters. -/
theorem C43_double_edge_fails : ∃ (q : V2 ℚ) (poly : List (V2 ℚ)), OnBoundary q poly ∧ q ∉ poly ∧ pointInPolygon q poly = .outside := by
  refine ⟨⟨1, 0⟩, [⟨0, 0⟩, ⟨2, 0⟩], ⟨(⟨0, 0⟩, ⟨2, 0⟩), by simp [edgesOf], 1/2, by norm_num, by norm_num, by norm_num [lerp]⟩, by decide +kernel, by decide +kernel⟩

end Mcut.Geom
