import Verif.Lemmas.C89Area
import Mathlib.Tactic.Positivity
import Mathlib.Tactic.Linarith
import Mathlib.Tactic.FieldSimp

/-! # The triangles of a face in space -/
namespace Mcut.Cdt
open Mcut.Geom Mcut.Hmesh Mcut.Preproc
variable {K : Type} [Field K] [LinearOrder K]

/-- The normal of a triangle in the plane of the face is a multiple of the face's normal. -/
theorem normal_parallel {n a b c : V3 K} (h1 : dot b n = dot a n) (h2 : dot c n = dot a n) (m : Nat) :
    dot n n * comp (triNormal a b c) m = dot n (triNormal a b c) * comp n m := by
  have e1 : dot (sub3 b a) n = 0 := by unfold dot sub3 at *; linear_combination h1
  have e2 : dot (sub3 c a) n = 0 := by unfold dot sub3 at *; linear_combination h2
  unfold triNormal
  generalize sub3 b a = u at *
  generalize sub3 c a = v at *
  unfold comp
  split
  · unfold dot Geom.cross at *
    simp only
    linear_combination (n.z * u.y - n.y * u.z) * e2 + (n.y * v.z - n.z * v.y) * e1
  · split
    · unfold dot Geom.cross at *
      simp only
      linear_combination (n.x * u.z - n.z * u.x) * e2 + (n.z * v.x - n.x * v.z) * e1
    · unfold dot Geom.cross at *
      simp only
      linear_combination (n.y * u.x - n.x * u.y) * e2 + (n.x * v.y - n.y * v.x) * e1

theorem triangleNormal_eq (P : Nat → V3 K) (a b c : Nat) : triangleNormal P [a, b, c] = triNormal (P a) (P b) (P c) := by
  simp only [triangleNormal, polygonNormal, normalFrom, triNormal, List.map_cons, List.map_nil]
  unfold add3 Geom.cross sub3
  apply V3.ext <;> simp only <;> ring

theorem triNormal_swap (n a b c : V3 K) : dot n (triNormal c b a) = -dot n (triNormal a b c) := by
  unfold triNormal dot Geom.cross sub3; ring

theorem project_comb (n : V3 K) (l : K) (m : Nat) (a b c : V3 K) (x y z : K) :
    project n l m ⟨x * a.x + y * b.x + z * c.x, x * a.y + y * b.y + z * c.y, x * a.z + y * b.z + z * c.z⟩ =
      ⟨x * (project n l m a).x + y * (project n l m b).x + z * (project n l m c).x, x * (project n l m a).y + y * (project n l m b).y + z * (project n l m c).y⟩ := by
  unfold project
  simp only
  generalize (⟨n.x / l, n.y / l, n.z / l⟩ : V3 K) = av
  generalize (if comp n m > 0 then 1 else if comp n m < 0 then -1 else 0 : K) = s
  generalize (⟨if m = 0 then s else 0, if m = 1 then s else 0, if m = 2 then s else 0⟩ : V3 K) = bv
  generalize add3 av bv = w
  generalize dot av bv = c'
  by_cases hab : av = bv
  · simp only [hab, if_true]
    split
    · apply V2.ext <;> simp only <;> ring
    · split <;> apply V2.ext <;> simp only <;> ring
  · simp only [hab, if_false]
    unfold dot
    split
    · apply V2.ext <;> simp only <;> ring
    · split <;> apply V2.ext <;> simp only <;> ring

variable [IsStrictOrderedRing K]

theorem dot_self_pos {n : V3 K} (h : n ≠ ⟨0, 0, 0⟩) : 0 < dot n n := by
  unfold dot
  rcases ne_or_eq n.x 0 with hx | hx
  · have := mul_self_pos.2 hx
    nlinarith [mul_self_nonneg n.y, mul_self_nonneg n.z]
  · rcases ne_or_eq n.y 0 with hy | hy
    · have := mul_self_pos.2 hy
      nlinarith [mul_self_nonneg n.x, mul_self_nonneg n.z]
    · rcases ne_or_eq n.z 0 with hz | hz
      · have := mul_self_pos.2 hz
        nlinarith [mul_self_nonneg n.x, mul_self_nonneg n.y]
      · exact absurd (V3.ext hx hy hz) h

theorem isLength_sq {sq : K → K} (hsq : ∀ x, 0 ≤ x → 0 ≤ sq x ∧ sq x * sq x = x) {n : V3 K} (h : n ≠ ⟨0, 0, 0⟩) : IsLength n (sq (dot n n)) := by
  have p := dot_self_pos h
  obtain ⟨h1, h2⟩ := hsq _ p.le
  refine ⟨lt_of_le_of_ne h1 fun e => ?_, h2⟩
  rw [← e] at h2
  simp only [mul_zero] at h2
  exact p.ne h2

theorem inOpen_comb {a b c : V2 K} {x y z : K} (h : 0 < orient2d a b c) (hx : 0 < x) (hy : 0 < y) (hz : 0 < z) (h1 : x + y + z = 1) :
    InOpen (⟨x * a.x + y * b.x + z * c.x, x * a.y + y * b.y + z * c.y⟩ : V2 K) a b c := by
  have e : x = 1 - y - z := by linear_combination h1
  have e1 : orient2d a b (⟨x * a.x + y * b.x + z * c.x, x * a.y + y * b.y + z * c.y⟩ : V2 K) = z * orient2d a b c := by subst e; unfold orient2d; ring
  have e2 : orient2d b c (⟨x * a.x + y * b.x + z * c.x, x * a.y + y * b.y + z * c.y⟩ : V2 K) = x * orient2d a b c := by subst e; unfold orient2d; ring
  have e3 : orient2d c a (⟨x * a.x + y * b.x + z * c.x, x * a.y + y * b.y + z * c.y⟩ : V2 K) = y * orient2d a b c := by subst e; unfold orient2d; ring
  unfold InOpen
  rw [e1, e2, e3]
  exact ⟨mul_pos hz h, mul_pos hx h, mul_pos hy h⟩

/-- From the plane to space. -/
theorem covers {vs : List (V3 K)} (three : 3 ≤ vs.length) (FL : Flat vs) {l : K} (hl : IsLength (polygonNormal vs) l) {R : Nat → V2 K} {g : Nat → Nat} (hg : ∀ v < vs.length, g v < vs.length)
    (hR : ∀ v < vs.length, R v = project (polygonNormal vs) l (largestComponent (polygonNormal vs)) (at3 vs (g v))) {ts : List Tri} (T : Tiles R vs.length ts) {out : List (List Nat)}
    (S : SameTris g ts out) (F : Fills vs.length out) : Covers (polygonNormal vs) (at3 vs) out := by
  obtain ⟨n, hn⟩ : ∃ n, n = polygonNormal vs := ⟨_, rfl⟩
  obtain ⟨m, hm⟩ : ∃ m, m = largestComponent n := ⟨_, rfl⟩
  have A := FL.area
  have D := FL.direction
  have PL := FL.planar
  rw [← hn] at A D PL hl ⊢
  rw [← hn, ← hm] at hR
  rw [← hm] at D
  obtain ⟨c1, c2⟩ := comp_largest A
  rw [← hm] at c1 c2
  have nn := dot_self_pos A
  have hj : jac n m ≠ 0 := fun h => D ((jac_zero_iff c2 c1).1 h)
  have mem : ∀ v < vs.length, at3 vs v ∈ vs := by
    intro v hv
    unfold at3
    rw [List.getD_eq_getElem?_getD, List.getElem?_eq_getElem hv]
    exact List.getElem_mem hv
  have pd : ∀ {v w}, v < vs.length → w < vs.length → dot (at3 vs v) n = dot (at3 vs w) n := fun hv hw => PL _ (mem _ hv) _ (mem _ hw)
  -- each triangle, in the plane and in space
  have tri : ∀ t ∈ ts, orient2d (project n l m (at3 vs (g (t.v 0)))) (project n l m (at3 vs (g (t.v 1)))) (project n l m (at3 vs (g (t.v 2)))) > 0 ∧
      0 < (jac n m * comp n m) * dot n (triNormal (at3 vs (g (t.v 0))) (at3 vs (g (t.v 1))) (at3 vs (g (t.v 2)))) := by
    intro t ht
    have h := T.ccw t ht
    have lt := T.corners t ht
    unfold Tri.at at h
    simp only [hR _ (lt 0), hR _ (lt 1), hR _ (lt 2)] at h
    refine ⟨h, ?_⟩
    have h1 := pd (hg _ (lt 1)) (hg _ (lt 0))
    have h2 := pd (hg _ (lt 2)) (hg _ (lt 0))
    have e := normal_parallel h1 h2 m
    rw [project_orient hl.1 c2 c1 h1 h2] at h
    have : (jac n m * comp n m) * dot n (triNormal (at3 vs (g (t.v 0))) (at3 vs (g (t.v 1))) (at3 vs (g (t.v 2)))) =
        dot n n * (jac n m * comp (triNormal (at3 vs (g (t.v 0))) (at3 vs (g (t.v 1))) (at3 vs (g (t.v 2)))) m) := by linear_combination -(jac n m) * e
    rw [this]
    exact mul_pos nn h
  obtain ⟨kept, order, perm, S⟩ := S
  have at' : ∀ {k : Nat} {f : List Nat}, out[k]? = some f → ∃ k', order[k]? = some k' ∧ ∃ t, ts[k']? = some t ∧ f = if kept then [g (t.v 0), g (t.v 1), g (t.v 2)] else [g (t.v 2), g (t.v 1), g (t.v 0)] := by
    intro k f hk
    obtain ⟨h1, rfl⟩ := List.getElem?_eq_some_iff.1 hk
    have h2 : k < order.length := by rw [S.length_eq]; exact h1
    have := (List.forall₂_iff_get.1 S).2 k h2 h1
    exact ⟨_, List.getElem?_eq_getElem h2, this⟩
  obtain ⟨s, hs, sign⟩ : ∃ s : K, s ≠ 0 ∧ ∀ f ∈ out, 0 < s * dot n (triangleNormal (at3 vs) f) := by
    refine ⟨if kept then jac n m * comp n m else -(jac n m * comp n m), ?_, ?_⟩
    · split
      · exact mul_ne_zero hj c1
      · exact neg_ne_zero.2 (mul_ne_zero hj c1)
    · intro f hf
      obtain ⟨k, hk⟩ := List.mem_iff_getElem?.1 hf
      obtain ⟨k', -, t, et, e⟩ := at' hk
      have := (tri t (List.mem_of_getElem? et)).2
      rw [e]
      cases kept
      · simp only [Bool.false_eq_true, if_false]
        rw [triangleNormal_eq, triNormal_swap]
        linarith
      · simp only [if_true]
        rw [triangleNormal_eq]
        exact this
  have sum := F.normals (by intro h; rw [h] at three; simp at three) n
  rw [← hn] at sum
  have pos : ∀ l : List (List Nat), l ≠ [] → (∀ f ∈ l, 0 < s * dot n (triangleNormal (at3 vs) f)) → 0 < s * (l.map (fun f => dot n (triangleNormal (at3 vs) f))).sum := by
    intro l
    induction l with
    | nil => intro h; exact absurd rfl h
    | cons f l ih =>
      intro _ h
      rw [List.map_cons, List.sum_cons, mul_add]
      have h1 := h f (by simp)
      by_cases hl : l = []
      · subst hl; simpa using h1
      · exact add_pos h1 (ih hl fun x hx => h x (by simp [hx]))
  have some1 : out ≠ [] := by
    intro h
    have := F.count
    rw [h] at this
    simp at this
    omega
  have sp : 0 < s := by
    have := pos out some1 sign
    rw [sum] at this
    exact (pos_iff_pos_of_mul_pos this).2 nn
  refine ⟨fun f hf => (pos_iff_pos_of_mul_pos (sign f hf)).1 sp, ?_, sum⟩
  have into : ∀ {k : Nat} {f : List Nat} {q : V3 K}, out[k]? = some f → Within (at3 vs) f q → ∃ k' t, order[k]? = some k' ∧ ts[k']? = some t ∧ InOpen (project n l m q) (t.at R 0) (t.at R 1) (t.at R 2) := by
    intro k f q hk W
    obtain ⟨k', h1, t, et, e⟩ := at' hk
    refine ⟨k', t, h1, et, ?_⟩
    have ht := List.mem_of_getElem? et
    have lt := T.corners t ht
    have o := (tri t ht).1
    unfold Tri.at
    rw [hR _ (lt 0), hR _ (lt 1), hR _ (lt 2)]
    obtain ⟨a, b, c, x, y, z, ef, hx, hy, hz, h1, rfl⟩ := W
    rw [project_comb]
    rw [ef] at e
    cases kept
    · simp only [Bool.false_eq_true, if_false, List.cons.injEq, and_true] at e
      obtain ⟨rfl, rfl, rfl⟩ := e
      have := inOpen_comb o hz hy hx (by linear_combination h1)
      refine (congrArg (fun q => InOpen q _ _ _) ?_).mp this
      apply V2.ext <;> simp only <;> ring
    · simp only [if_true, List.cons.injEq, and_true] at e
      obtain ⟨rfl, rfl, rfl⟩ := e
      exact inOpen_comb o hx hy hz h1
  intro q k k' f f' hk hk' W W'
  obtain ⟨a, t, a1, a2, a3⟩ := into hk W
  obtain ⟨b, t', b1, b2, b3⟩ := into hk' W'
  have := T.apart _ _ _ _ _ a2 b2 a3 b3
  subst this
  have nd : order.Nodup := perm.nodup_iff.2 List.nodup_range
  exact (List.getElem?_inj (List.getElem?_eq_some_iff.1 a1).1 nd).1 (a1.trans b1.symm)

end Mcut.Cdt
