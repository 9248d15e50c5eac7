import Verif.Lemmas.C43Tri

namespace Mcut.Geom

variable {K : Type*} [Field K] [LinearOrder K] [IsStrictOrderedRing K]

theorem mem_edgesOf {α : Type*} {l : List α} {e : α × α} (h : e ∈ edgesOf l) : e.1 ∈ l ∧ e.2 ∈ l := by
  unfold edgesOf at h
  obtain ⟨h1, h2⟩ := List.of_mem_zip (a := e.1) (b := e.2) h
  refine ⟨h1, ?_⟩
  rcases List.mem_append.1 h2 with h | h
  · exact List.mem_of_mem_tail h
  · exact List.mem_of_mem_take h

theorem crossLoop_eq (r l : Nat) (vl : V2 K) (vs : List (V2 K)) : crossLoop r l vl vs =
    if zero2 ∈ vs then Option.none else some (r + pathCount isR (vl :: vs), l + pathCount isL (vl :: vs)) := by
  induction vs generalizing r l vl with
  | nil => simp [crossLoop, pathCount]
  | cons v rest ih =>
    unfold crossLoop
    by_cases hv : v.x = 0 ∧ v.y = 0
    · have : v = zero2 := V2.ext hv.1 hv.2
      simp [this, zero2]
    · have hv' : zero2 ≠ v := fun h => hv (by rw [← h]; exact ⟨rfl, rfl⟩)
      rw [if_neg hv, ih]
      have hm : (zero2 ∈ v :: rest) ↔ zero2 ∈ rest := by simp [hv']
      by_cases hz : zero2 ∈ rest
      · rw [if_pos hz, if_pos (hm.2 hz)]
      · rw [if_neg hz, if_neg (fun h => hz (hm.1 h)), pathCount_cons2, pathCount_cons2]
        congr 1
        refine Prod.ext ?_ ?_ <;> simp only
        · change (if isR vl v then r + 1 else r) + _ = _
          cases isR vl v <;> simp; omega
        · change (if isL vl v then l + 1 else l) + _ = _
          cases isL vl v <;> simp; omega

theorem cycCount_eq_path {α : Type*} (f : α → α → Bool) (v : α) (rest : List α) (d : α) :
    pathCount f ((v :: rest).getLastD d :: v :: rest) = cycCount f (v :: rest) := by
  rw [pathCount_cons2, lastD_any v rest d v]; simp only [cycCount]; omega

/-- The two counters for a query point. -/
def Rc (q : V2 K) (poly : List (V2 K)) : Nat := cycCount (fun a b => isR (sh q a) (sh q b)) poly
def Lc (q : V2 K) (poly : List (V2 K)) : Nat := cycCount (fun a b => isL (sh q a) (sh q b)) poly
def Oc (q : V2 K) (poly : List (V2 K)) : Nat := cycCount (fun a b => isOn (sh q a) (sh q b)) poly

theorem pip_eq (q : V2 K) (poly : List (V2 K)) : pointInPolygon q poly =
    if q ∈ poly then .vertex else if Rc q poly % 2 ≠ Lc q poly % 2 then .edge else if Rc q poly % 2 = 1 then .inside else .outside := by
  have hmem : zero2 ∈ poly.map (sh q) ↔ q ∈ poly := by
    rw [List.mem_map]
    constructor
    · rintro ⟨v, hv, h⟩; rw [sh_zero] at h; exact h ▸ hv
    · intro h; exact ⟨q, h, sh_zero.2 rfl⟩
  unfold pointInPolygon
  change (match crossLoop 0 0 ((poly.map (sh q)).getLastD ⟨0, 0⟩) (poly.map (sh q)) with | Option.none => _ | some (r, l) => _) = _
  rw [crossLoop_eq]
  by_cases h : q ∈ poly
  · rw [if_pos (hmem.2 h), if_pos h]
  · rw [if_neg (fun h' => h (hmem.1 h')), if_neg h]
    cases poly with
    | nil => simp [Rc, Lc, cycCount, pathCount]
    | cons v rest =>
      simp only [List.map_cons, cycCount_eq_path, Nat.zero_add]
      unfold Rc Lc
      rw [← List.map_cons (f := sh q), cycCount_map, cycCount_map]

theorem parity_sum {q : V2 K} {poly : List (V2 K)} (h : q ∉ poly) : (Rc q poly + Lc q poly + Oc q poly) % 2 = 0 := by
  rw [← cycCount_coboundary (fun v => isUp (sh q v)) poly]
  unfold Rc Lc Oc
  apply cycCount_xor3
  intro e he
  obtain ⟨h1, h2⟩ := mem_edgesOf he
  exact edge_identity (fun h0 => h (sh_zero.1 h0 ▸ h1)) (fun h0 => h (sh_zero.1 h0 ▸ h2))

theorem howMany_cyc {α : Type*} {l : List α} {P : α × α → Prop} {f : α → α → Bool} (h : ∀ e ∈ edgesOf l, P e ↔ f e.1 e.2 = true) :
    howMany P (edgesOf l) = cycCount f l := by
  rw [← countP_edges]
  unfold howMany
  apply List.countP_congr
  intro e he
  simp only [decide_eq_true_eq]; exact h e he

theorem isOn_sh {q a b : V2 K} (ha : a ≠ q) (hb : b ≠ q) : OnSeg a b q ↔ isOn (sh q a) (sh q b) = true := by
  rw [isOn_iff (fun h => ha (sh_zero.1 h)) (fun h => hb (sh_zero.1 h)), onSeg_sh]

theorem Oc_eq {q : V2 K} {poly : List (V2 K)} (h : q ∉ poly) : howMany (fun e : V2 K × V2 K => OnSeg e.1 e.2 q) (edgesOf poly) = Oc q poly := by
  apply howMany_cyc
  intro e he
  obtain ⟨h1, h2⟩ := mem_edgesOf he
  exact isOn_sh (fun h' => h (h' ▸ h1)) (fun h' => h (h' ▸ h2))

theorem howMany_zero {α : Type*} {l : List α} {P : α → Prop} (h : ∀ x ∈ l, ¬ P x) : howMany P l = 0 := by
  unfold howMany; rw [List.countP_eq_zero]; intro x hx; simp only [decide_eq_true_eq]; exact h x hx

theorem howMany_congr {α : Type*} {l : List α} {P Q : α → Prop} (h : ∀ x ∈ l, (P x ↔ Q x)) : howMany P l = howMany Q l := by
  unfold howMany; apply List.countP_congr; intro x hx; simp only [decide_eq_true_eq]; exact h x hx

theorem off_boundary_parity {q : V2 K} {poly : List (V2 K)} (hv : q ∉ poly) (h : ¬ OnBoundary q poly) : Rc q poly % 2 = Lc q poly % 2 := by
  have h0 : Oc q poly = 0 := by rw [← Oc_eq hv]; exact howMany_zero (fun e he ho => h ⟨e, he, ho⟩)
  have := parity_sum hv
  omega

theorem edge_of_mem {α : Type*} {l : List α} {v : α} (h : v ∈ l) : ∃ e ∈ edgesOf l, e.1 = v := by
  have hlen : l.length ≤ (l.tail ++ l.take 1).length := by simp; omega
  have hm : (edgesOf l).map Prod.fst = l := by unfold edgesOf; rw [List.map_fst_zip hlen]
  rw [← hm] at h
  obtain ⟨e, he, rfl⟩ := List.mem_map.1 h
  exact ⟨e, he, rfl⟩

theorem vertex_on_boundary {q : V2 K} {poly : List (V2 K)} (h : q ∈ poly) : OnBoundary q poly := by
  obtain ⟨e, he, rfl⟩ := edge_of_mem h
  exact ⟨e, he, 0, le_refl _, zero_le_one, by unfold lerp; simp⟩

theorem off_cases {q : V2 K} {poly : List (V2 K)} (h : ¬ OnBoundary q poly) : pointInPolygon q poly = if Rc q poly % 2 = 1 then .inside else .outside := by
  have hv : q ∉ poly := fun hv => h (vertex_on_boundary hv)
  rw [pip_eq, if_neg hv, if_neg (not_not.2 (off_boundary_parity hv h))]

/-! ## Rays -/

/-- The edge meets the horizontal ray to the right of the origin at height `h`. -/
def Meets (h : K) (a b : V2 K) : Prop := ∃ p, OnSeg a b p ∧ p.y = h ∧ 0 < p.x

theorem onSeg_symm {a b p : V2 K} (h : OnSeg a b p) : OnSeg b a p := by
  obtain ⟨t, h0, h1, rfl⟩ := h
  refine ⟨1 - t, by linarith, by linarith, ?_⟩
  apply V2.ext <;> simp only [lerp] <;> ring

theorem Meets.symm {h : K} {a b : V2 K} : Meets h a b ↔ Meets h b a :=
  ⟨fun ⟨p, h1, h2⟩ => ⟨p, onSeg_symm h1, h2⟩, fun ⟨p, h1, h2⟩ => ⟨p, onSeg_symm h1, h2⟩⟩

theorem meets_above {h : K} {a b : V2 K} (ha : h < a.y) (hb : h < b.y) : ¬ Meets h a b := by
  rintro ⟨p, ⟨t, h0, h1, rfl⟩, hy, _⟩
  simp only [lerp] at hy
  have e : a.y + t * (b.y - a.y) = (1 - t) * a.y + t * b.y := by ring
  rw [e] at hy
  rcases eq_or_lt_of_le h0 with rfl | h0
  · rw [zero_mul, add_zero, sub_zero, one_mul] at hy; exact absurd hy ha.ne'
  · have m1 : t * h < t * b.y := mul_lt_mul_of_pos_left hb h0
    have m2 : (1 - t) * h ≤ (1 - t) * a.y := mul_le_mul_of_nonneg_left ha.le (by linarith)
    have : h = (1 - t) * h + t * h := by ring
    linarith

theorem meets_below {h : K} {a b : V2 K} (ha : a.y < h) (hb : b.y < h) : ¬ Meets h a b := by
  rintro ⟨p, ⟨t, h0, h1, rfl⟩, hy, _⟩
  simp only [lerp] at hy
  have e : a.y + t * (b.y - a.y) = (1 - t) * a.y + t * b.y := by ring
  rw [e] at hy
  rcases eq_or_lt_of_le h0 with rfl | h0
  · rw [zero_mul, add_zero, sub_zero, one_mul] at hy; exact absurd hy ha.ne
  · have m1 : t * b.y < t * h := mul_lt_mul_of_pos_left hb h0
    have m2 : (1 - t) * a.y ≤ (1 - t) * h := mul_le_mul_of_nonneg_left ha.le (by linarith)
    have : h = (1 - t) * h + t * h := by ring
    linarith

theorem meets_straddle {h : K} {a b : V2 K} (ha : a.y ≤ h) (hb : h < b.y) : Meets h a b ↔ 0 < cr a b + h * (b.x - a.x) := by
  have hd : 0 < b.y - a.y := by linarith
  have key : ∀ t, a.y + t * (b.y - a.y) = h → (a.x + t * (b.x - a.x)) * (b.y - a.y) = cr a b + h * (b.x - a.x) := by
    intro t ht; rw [← ht]; unfold cr; ring
  constructor
  · rintro ⟨p, ⟨t, h0, h1, rfl⟩, hy, hx⟩
    simp only [lerp] at hy hx
    rw [← key t hy]; exact mul_pos hx hd
  · intro hp
    have ht : a.y + (h - a.y) / (b.y - a.y) * (b.y - a.y) = h := by rw [div_mul_cancel₀ _ hd.ne']; ring
    refine ⟨_, ⟨(h - a.y) / (b.y - a.y), div_nonneg (by linarith) hd.le, (div_le_one hd).2 (by linarith), rfl⟩, ht, ?_⟩
    have := key _ ht
    simp only [lerp]
    by_contra hc
    have := mul_nonpos_of_nonpos_of_nonneg (not_lt.1 hc) hd.le
    linarith

theorem on_ray_iff {q a b : V2 K} {h : K} : (∃ p, OnSeg a b p ∧ OnRay ⟨q.x, q.y + h⟩ p) ↔ Meets h (sh q a) (sh q b) := by
  constructor
  · rintro ⟨p, ⟨t, h0, h1, he⟩, hy, hx⟩
    refine ⟨sh q p, ⟨t, h0, h1, ?_⟩, ?_, ?_⟩
    · rw [he]; apply V2.ext <;> simp only [lerp, sh] <;> ring
    · simp only [sh]; simp only at hy; rw [hy]; ring
    · simp only [sh]; simp only at hx; linarith
  · rintro ⟨p, ⟨t, h0, h1, he⟩, hy, hx⟩
    refine ⟨lerp a b t, ⟨t, h0, h1, rfl⟩, ?_⟩
    rw [he] at hy hx
    simp only [lerp, sh] at hy hx
    constructor <;> simp only [lerp]
    · linear_combination hy
    · linarith

/-- For an edge that does not contain the origin the code's test is the crossing test for a ray slightly above. -/
theorem isR_meets {a b : V2 K} (ha : a ≠ zero2) (hb : b ≠ zero2) (hon : isOn a b = false) :
    ∃ ε : K, 0 < ε ∧ ∀ δ, 0 < δ → δ < ε → (isR a b = true ↔ Meets δ a b) := by
  have main : ∀ {a b : V2 K}, a ≠ zero2 → b ≠ zero2 → isOn a b = false → a.y ≤ 0 → 0 < b.y →
      ∃ ε : K, 0 < ε ∧ ∀ δ, 0 < δ → δ < ε → (isR a b = true ↔ Meets δ a b) := by
    intro a b ha hb hon h1 h2
    have hn : cr a b ≠ 0 := by
      have := straddle_ne ha h2 h1 (by rw [isOn_symm]; exact hon)
      rw [cr_swap a b] at this; exact fun h => this (by rw [h, neg_zero])
    have hpos : (0 : K) < |b.x - a.x| + 1 := by have := abs_nonneg (b.x - a.x); linarith
    refine ⟨min b.y (|cr a b| / (|b.x - a.x| + 1)), lt_min h2 (div_pos (abs_pos.2 hn) hpos), fun δ d0 d1 => ?_⟩
    have d2 : δ < b.y := lt_of_lt_of_le d1 (min_le_left _ _)
    have d3 : δ < |cr a b| / (|b.x - a.x| + 1) := lt_of_lt_of_le d1 (min_le_right _ _)
    rw [lt_div_iff₀ hpos] at d3
    rw [meets_straddle (h1.trans d0.le) d2, isR_down_up h1 h2]
    have hb1 : δ * (b.x - a.x) ≤ δ * |b.x - a.x| := mul_le_mul_of_nonneg_left (le_abs_self _) d0.le
    have hb2 : -(δ * |b.x - a.x|) ≤ δ * (b.x - a.x) := by
      have := mul_le_mul_of_nonneg_left (neg_abs_le (b.x - a.x)) d0.le
      linarith
    constructor
    · intro hc; rw [abs_of_pos hc] at d3; linarith
    · intro hc
      by_contra hcon
      rw [abs_of_nonpos (not_lt.1 hcon)] at d3
      linarith
  by_cases h1 : 0 < a.y <;> by_cases h2 : 0 < b.y
  · refine ⟨min a.y b.y, lt_min h1 h2, fun δ _ d1 => ?_⟩
    rw [isR_up_up h1 h2]
    exact ⟨fun h => (by cases h), fun h => absurd h (meets_above (lt_of_lt_of_le d1 (min_le_left _ _)) (lt_of_lt_of_le d1 (min_le_right _ _)))⟩
  · obtain ⟨ε, h0, h⟩ := main hb ha (by rw [isOn_symm]; exact hon) (not_lt.1 h2) h1
    refine ⟨ε, h0, fun δ d0 d1 => ?_⟩
    rw [isR_symm, Meets.symm]; exact h δ d0 d1
  · exact main ha hb hon (not_lt.1 h1) h2
  · refine ⟨1, zero_lt_one, fun δ d0 _ => ?_⟩
    rw [isR_down_down (not_lt.1 h1) (not_lt.1 h2)]
    exact ⟨fun h => (by cases h), fun h => absurd h (meets_below (lt_of_le_of_lt (not_lt.1 h1) d0) (lt_of_le_of_lt (not_lt.1 h2) d0))⟩

/-- Without a vertex at the height of the origin: the ray itself. -/
theorem isR_meets_zero {a b : V2 K} (ha : a.y ≠ 0) (hb : b.y ≠ 0) : isR a b = true ↔ Meets 0 a b := by
  by_cases h1 : 0 < a.y <;> by_cases h2 : 0 < b.y
  · rw [isR_up_up h1 h2]; exact ⟨fun h => (by cases h), fun h => absurd h (meets_above h1 h2)⟩
  · rw [isR_symm, Meets.symm, isR_down_up (not_lt.1 h2) h1, meets_straddle (not_lt.1 h2) h1, zero_mul, add_zero]
  · rw [isR_down_up (not_lt.1 h1) h2, meets_straddle (not_lt.1 h1) h2, zero_mul, add_zero]
  · have h1 := lt_of_le_of_ne (not_lt.1 h1) ha
    have h2 := lt_of_le_of_ne (not_lt.1 h2) hb
    rw [isR_down_down h1.le h2.le]; exact ⟨fun h => (by cases h), fun h => absurd h (meets_below h1 h2)⟩

theorem eps_list {α : Type*} {P : α → K → Prop} : ∀ l : List α, (∀ x ∈ l, ∃ ε : K, 0 < ε ∧ ∀ δ, 0 < δ → δ < ε → P x δ) →
    ∃ ε : K, 0 < ε ∧ ∀ x ∈ l, ∀ δ, 0 < δ → δ < ε → P x δ
  | [], _ => ⟨1, zero_lt_one, fun x hx => absurd hx (by simp)⟩
  | a :: l, h => by
    obtain ⟨e1, p1, h1⟩ := h a (by simp)
    obtain ⟨e2, p2, h2⟩ := eps_list l (fun x hx => h x (List.mem_cons_of_mem _ hx))
    refine ⟨min e1 e2, lt_min p1 p2, fun x hx δ d0 d1 => ?_⟩
    rcases List.mem_cons.1 hx with rfl | hx
    · exact h1 δ d0 (lt_of_lt_of_le d1 (min_le_left _ _))
    · exact h2 x hx δ d0 (lt_of_lt_of_le d1 (min_le_right _ _))

/-! ## Fans -/

theorem sum_parity {α : Type*} {P : α → Prop} {g : α → Nat} : ∀ l : List α, (∀ x ∈ l, g x % 2 = 1 ↔ P x) → (l.map g).sum % 2 = howMany P l % 2
  | [], _ => rfl
  | a :: l, h => by
    have ih := sum_parity l (fun x hx => h x (List.mem_cons_of_mem _ hx))
    have ha := h a (by simp)
    unfold howMany at ih ⊢
    rw [List.map_cons, List.sum_cons]
    by_cases hp : P a
    · have := ha.2 hp; rw [List.countP_cons_of_pos (by simpa using hp)]; omega
    · have : g a % 2 = 0 := (Nat.mod_two_eq_zero_or_one _).resolve_right (fun hh => hp (ha.1 hh))
      rw [List.countP_cons_of_neg (by simpa using hp)]; omega

theorem tri_cyc {q a b c : V2 K} (hab : ¬ OnSeg a b q) (hbc : ¬ OnSeg b c q) (hca : ¬ OnSeg c a q) :
    cycCount (fun a b => isR (sh q a) (sh q b)) [a, b, c] % 2 = 1 ↔ StrictlyInside a b c q := by
  have hne : ∀ {u v : V2 K}, ¬ OnSeg u v q → u ≠ q := by
    rintro u v h rfl; exact h ⟨0, le_refl _, zero_le_one, by unfold lerp; simp⟩
  have ha := hne hab; have hb := hne hbc; have hc := hne hca
  have z : ∀ {u : V2 K}, u ≠ q → sh q u ≠ zero2 := fun h h' => h (sh_zero.1 h')
  have o : ∀ {u v : V2 K}, u ≠ q → v ≠ q → ¬ OnSeg u v q → isOn (sh q u) (sh q v) = false := by
    intro u v hu hv h; rw [Bool.eq_false_iff]; exact fun h' => h ((isOn_sh hu hv).2 h')
  rw [strictlyInside_iff, ← tri_parity (z ha) (z hb) (z hc) (o ha hb hab) (o hb hc hbc) (o hc ha hca)]
  simp only [cycCount, pathCount, List.getLastD_cons, List.getLastD_nil]
  cases isR (sh q a) (sh q b) <;> cases isR (sh q b) (sh q c) <;> cases isR (sh q c) (sh q a) <;> simp

end Mcut.Geom
