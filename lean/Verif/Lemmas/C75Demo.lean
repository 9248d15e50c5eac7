import Verif.Lemmas.C75Type
import Verif.Props.C49

/-! A concrete mesh for C75: the tetrahedron with the vertices `(s,s,s)`, `(s+L,s,s)`, `(s,s+L,s)`, `(s,s,s+L)`, its faces counter-clockwise seen from outside. -/
namespace Mcut.Winding
open Mcut.Hmesh Mcut.Dispatch Mcut.Preproc

def tetFaces : List (List Nat) := [[0, 2, 1], [0, 1, 3], [0, 3, 2], [1, 2, 3]]

def tetPts (s L : ℝ) : List Vec := [⟨s, s, s⟩, ⟨s + L, s, s⟩, ⟨s, s + L, s⟩, ⟨s, s, s + L⟩]

/-- The mesh that is loaded from these arrays. -/
def tetMesh (s L : ℝ) : Mesh Vec := (addFaces (addVertices (Mesh.empty ⟨0, 0, 0⟩) (tetPts s L)) tetFaces).1

/-- The tetrahedron with its box, enlarged by `e`. -/
def tet (s L e : ℝ) : Body := ⟨tetMesh s L, fun _ => [], ⟨⟨s - e, s - e, s - e⟩, ⟨s + L + e, s + L + e, s + L + e⟩⟩⟩

theorem tet_built (s L : ℝ) : Built ⟨0, 0, 0⟩ (tetPts s L) tetFaces (tetMesh s L) := by
  have h := addFaces_spec tetFaces [] (addVertices (Mesh.empty ⟨0, 0, 0⟩) (tetPts s L)) (built_vertices _ _)
    (by intro f hf; unfold Preproc.GoodFace; simp only [tetFaces, List.mem_cons, List.not_mem_nil, or_false] at hf; rcases hf with rfl | rfl | rfl | rfl <;> simp [tetPts]) (by simp)
  exact h.2 (h.1.2 (by decide +kernel))

attribute [irreducible] tetMesh

theorem tet_live (s L e : ℝ) (f : Nat) : LiveF (tet s L e).mesh f ↔ f = 0 ∨ f = 1 ∨ f = 2 ∨ f = 3 := by
  have B := tet_built s L
  show LiveF (tetMesh s L) f ↔ _
  unfold LiveF Live
  rw [B.nF, B.fRem]
  simp [tetFaces]; omega

theorem tet_v0 (s L e : ℝ) : (tet s L e).mesh.verticesAroundFace 0 = [2, 1, 0] := (tet_built s L).tgts 0 _ rfl
theorem tet_v1 (s L e : ℝ) : (tet s L e).mesh.verticesAroundFace 1 = [1, 3, 0] := (tet_built s L).tgts 1 _ rfl
theorem tet_v2 (s L e : ℝ) : (tet s L e).mesh.verticesAroundFace 2 = [3, 2, 0] := (tet_built s L).tgts 2 _ rfl
theorem tet_v3 (s L e : ℝ) : (tet s L e).mesh.verticesAroundFace 3 = [2, 3, 1] := (tet_built s L).tgts 3 _ rfl
theorem tet_p0 (s L e : ℝ) : (tet s L e).mesh.pos 0 = ⟨s, s, s⟩ := (tet_built s L).pos 0 _ rfl
theorem tet_p1 (s L e : ℝ) : (tet s L e).mesh.pos 1 = ⟨s + L, s, s⟩ := (tet_built s L).pos 1 _ rfl
theorem tet_p2 (s L e : ℝ) : (tet s L e).mesh.pos 2 = ⟨s, s + L, s⟩ := (tet_built s L).pos 2 _ rfl
theorem tet_p3 (s L e : ℝ) : (tet s L e).mesh.pos 3 = ⟨s, s, s + L⟩ := (tet_built s L).pos 3 _ rfl

theorem tet_closed (s L e : ℝ) : (tet s L e).mesh.isClosed = true := by
  refine (C49_arrays (tet_built s L)).2 ?_
  have k : ∀ p ∈ tetFaces.flatMap Preproc.dirEdges, (p.2, p.1) ∈ tetFaces.flatMap Preproc.dirEdges := by decide +kernel
  exact fun u v h => k (u, v) h

theorem tet_triangles (s L e : ℝ) : triangles (tet s L e) = [(2, 1, 0), (1, 3, 0), (3, 2, 0), (2, 3, 1)] := by
  unfold triangles
  have B := tet_built s L
  have e1 : (tet s L e).mesh.nF = 4 := B.nF
  have e2 : (tet s L e).mesh.fRem = [] := B.fRem
  rw [e1, e2]
  have e3 : (List.range 4).filter (fun f => decide (f ∉ ([] : List Nat))) = [0, 1, 2, 3] := by decide
  rw [e3]
  simp only [List.flatMap_cons, List.flatMap_nil, trianglesOf, corner, tet_v0, tet_v1, tet_v2, tet_v3]
  rfl

theorem tet_of (s L e : ℝ) {f : Nat} (hf : LiveF (tet s L e).mesh f) : ∃ x y z, (tet s L e).mesh.verticesAroundFace f = [x, y, z] ∧ trianglesOf (tet s L e) f = [(x, y, z)] := by
  rcases (tet_live s L e f).1 hf with rfl | rfl | rfl | rfl
  · exact ⟨2, 1, 0, tet_v0 s L e, by simp [trianglesOf, corner, tet_v0]⟩
  · exact ⟨1, 3, 0, tet_v1 s L e, by simp [trianglesOf, corner, tet_v1]⟩
  · exact ⟨3, 2, 0, tet_v2 s L e, by simp [trianglesOf, corner, tet_v2]⟩
  · exact ⟨2, 3, 1, tet_v3 s L e, by simp [trianglesOf, corner, tet_v3]⟩

theorem tet_proper (s L e : ℝ) : Proper (tet s L e) where
  reachable := ⟨_, (tet_built s L).reach⟩
  inRange := by intro f _ i hi; exact absurd hi (by simp [tet])
  divided := by
    intro f hf h
    obtain ⟨x, y, z, h1, _⟩ := tet_of s L e hf
    rw [h1] at h
    simp at h

theorem tet_joined (s L e : ℝ) : Joined (tet s L e) where
  first := ⟨0, (tet_live s L e 0).2 (Or.inl rfl), by rw [tet_v0]; simp⟩
  path := by
    have step : ∀ w, (0, w) ∈ ([(0, 1), (0, 2), (0, 3)] : List (Nat × Nat)) → Relation.EqvGen (fun u w => ∃ f, LiveF (tet s L e).mesh f ∧ (u, w) ∈ Preproc.dirEdges ((tet s L e).mesh.verticesAroundFace f)) 0 w := by
      intro w hw
      apply Relation.EqvGen.rel
      simp only [List.mem_cons, List.not_mem_nil, or_false, Prod.mk.injEq, true_and] at hw
      rcases hw with rfl | rfl | rfl
      · exact ⟨1, (tet_live s L e 1).2 (by simp), by rw [tet_v1]; decide +kernel⟩
      · exact ⟨0, (tet_live s L e 0).2 (by simp), by rw [tet_v0]; decide +kernel⟩
      · exact ⟨2, (tet_live s L e 2).2 (by simp), by rw [tet_v2]; decide +kernel⟩
    intro f hf v hv
    have : v = 0 ∨ v = 1 ∨ v = 2 ∨ v = 3 := by
      rcases (tet_live s L e f).1 hf with rfl | rfl | rfl | rfl
      · rw [tet_v0] at hv; simp at hv; omega
      · rw [tet_v1] at hv; simp at hv; omega
      · rw [tet_v2] at hv; simp at hv; omega
      · rw [tet_v3] at hv; simp at hv; omega
    rcases this with rfl | rfl | rfl | rfl
    · exact .refl _
    · exact step 1 (by simp)
    · exact step 2 (by simp)
    · exact step 3 (by simp)

theorem tet_boxOf (s : ℝ) {L : ℝ} (hL : 0 < L) (e : ℝ) : BoxOf e (tet s L e) where
  within := by
    intro f hf v hv
    have : v = 0 ∨ v = 1 ∨ v = 2 ∨ v = 3 := by
      rcases (tet_live s L e f).1 hf with rfl | rfl | rfl | rfl
      · rw [tet_v0] at hv; simp at hv; omega
      · rw [tet_v1] at hv; simp at hv; omega
      · rw [tet_v2] at hv; simp at hv; omega
      · rw [tet_v3] at hv; simp at hv; omega
    have elo : (tet s L e).box.lo = ⟨s - e, s - e, s - e⟩ := rfl
    have ehi : (tet s L e).box.hi = ⟨s + L + e, s + L + e, s + L + e⟩ := rfl
    rw [elo, ehi]
    rcases this with rfl | rfl | rfl | rfl
    · rw [tet_p0]; simp; linarith
    · rw [tet_p1]; simp; linarith
    · rw [tet_p2]; simp; linarith
    · rw [tet_p3]; simp; linarith
  lox := ⟨0, 0, (tet_live s L e 0).2 (by simp), by rw [tet_v0]; simp, by rw [tet_p0]; show s = s - e + e; ring⟩
  loy := ⟨0, 0, (tet_live s L e 0).2 (by simp), by rw [tet_v0]; simp, by rw [tet_p0]; show s = s - e + e; ring⟩
  loz := ⟨0, 0, (tet_live s L e 0).2 (by simp), by rw [tet_v0]; simp, by rw [tet_p0]; show s = s - e + e; ring⟩
  hix := ⟨0, 1, (tet_live s L e 0).2 (by simp), by rw [tet_v0]; simp, by rw [tet_p1]; show s + L = s + L + e - e; ring⟩
  hiy := ⟨0, 2, (tet_live s L e 0).2 (by simp), by rw [tet_v0]; simp, by rw [tet_p2]; show s + L = s + L + e - e; ring⟩
  hiz := ⟨1, 3, (tet_live s L e 1).2 (by simp), by rw [tet_v1]; simp, by rw [tet_p3]; show s + L = s + L + e - e; ring⟩

theorem tet_surface {s L e : ℝ} (hL : 0 < L) {q : Vec} (h : OnSurface (tet s L e) q) :
    s ≤ q.x ∧ s ≤ q.y ∧ s ≤ q.z ∧ q.x + q.y + q.z ≤ 3 * s + L ∧ (q.x = s ∨ q.y = s ∨ q.z = s ∨ q.x + q.y + q.z = 3 * s + L) := by
  obtain ⟨f, hf, ho⟩ := h
  obtain ⟨x, y, z, h1, h2⟩ := tet_of s L e hf
  unfold OnFace at ho
  rw [if_neg (by rw [h1]; simp)] at ho
  obtain ⟨t, ht, α, β, γ, a1, a2, a3, a4, rfl⟩ := ho
  rw [h2, List.mem_singleton] at ht
  subst ht
  have b1 := mul_nonneg a1 hL.le
  have b2 := mul_nonneg a2 hL.le
  have b3 := mul_nonneg a3 hL.le
  have g : γ = 1 - α - β := by linarith
  rcases (tet_live s L e f).1 hf with rfl | rfl | rfl | rfl
  · rw [tet_v0] at h1; simp at h1; obtain ⟨rfl, rfl, rfl⟩ := h1
    subst g
    simp only [tet_p0, tet_p1, tet_p2]
    refine ⟨by linarith, by linarith, by linarith, by linarith, Or.inr (Or.inr (Or.inl (by ring)))⟩
  · rw [tet_v1] at h1; simp at h1; obtain ⟨rfl, rfl, rfl⟩ := h1
    subst g
    simp only [tet_p0, tet_p1, tet_p3]
    refine ⟨by linarith, by linarith, by linarith, by linarith, Or.inr (Or.inl (by ring))⟩
  · rw [tet_v2] at h1; simp at h1; obtain ⟨rfl, rfl, rfl⟩ := h1
    subst g
    simp only [tet_p0, tet_p2, tet_p3]
    refine ⟨by linarith, by linarith, by linarith, by linarith, Or.inl (by ring)⟩
  · rw [tet_v3] at h1; simp at h1; obtain ⟨rfl, rfl, rfl⟩ := h1
    subst g
    simp only [tet_p1, tet_p2, tet_p3]
    refine ⟨by linarith, by linarith, by linarith, by linarith, Or.inr (Or.inr (Or.inr (by ring)))⟩

/-- Nested tetrahedra have no point in common. -/
theorem tet_disjoint {s L e s' L' e' : ℝ} (hL : 0 < L) (hL' : 0 < L') (h : s < s') (h' : 3 * s' + L' < 3 * s + L) (q : Vec) : ¬(OnSurface (tet s L e) q ∧ OnSurface (tet s' L' e') q) := by
  rintro ⟨a, b⟩
  obtain ⟨_, _, _, _, a5⟩ := tet_surface hL a
  obtain ⟨b1, b2, b3, b4, _⟩ := tet_surface hL' b
  rcases a5 with a5 | a5 | a5 | a5 <;> linarith

/-- A point in the middle is inside of the tetrahedron. -/
theorem tet_inside {s : ℝ} (hs : 0 < s) (hs' : 3 * s < 4) (e : ℝ) : Inside (tet 0 4 e) ⟨s, s, s⟩ := by
  have hq : ¬OnSurface (tet 0 4 e) ⟨s, s, s⟩ := by
    intro h
    obtain ⟨_, _, _, _, a⟩ := tet_surface (by norm_num) h
    simp only at a
    rcases a with a | a | a | a <;> linarith
  rw [inside_iff (tet_proper _ _ _) (tet_closed _ _ _) hq]
  have g : Generic (tet 0 4 e) ⟨s, s, s⟩ ⟨-1, -2, -3⟩ := by
    refine ⟨Or.inl (by norm_num), ?_⟩
    intro r hr t ht hh
    rw [tet_triangles] at hr
    have hr' : r ∈ [(2, 1), (1, 0), (0, 2), (1, 3), (3, 0), (0, 1), (3, 2), (2, 0), (0, 3), (2, 3), (3, 1), (1, 2)] := hr
    obtain ⟨α, β, a1, a2, a3, eq⟩ := hh
    have ex := congrArg Geom.V3.x eq
    have ey := congrArg Geom.V3.y eq
    have ez := congrArg Geom.V3.z eq
    simp only [ray] at ex ey ez
    simp only [List.mem_cons, List.not_mem_nil, or_false] at hr'
    rcases hr' with rfl | rfl | rfl | rfl | rfl | rfl | rfl | rfl | rfl | rfl | rfl | rfl <;> simp only [tet_p0, tet_p1, tet_p2, tet_p3] at ex ey ez <;> linarith
  rw [ray_count (tet_proper _ _ _) (tet_closed _ _ _) hq g]
  unfold crossings
  rw [tet_triangles]
  simp only [List.map_cons, List.map_nil, List.sum_cons, List.sum_nil, tet_p0, tet_p1, tet_p2, tet_p3]
  have c1 : crossing ⟨s, s, s⟩ ⟨-1, -2, -3⟩ ⟨0, 0 + 4, 0⟩ ⟨0 + 4, 0, 0⟩ ⟨0, 0, 0⟩ = 1 := by
    unfold crossing
    rw [if_pos, if_pos]
    · norm_num [dot, normal, cross, sub]
    · refine ⟨s / 3, by positivity, s / 12, s / 6, 1 - s / 4, by positivity, by positivity, by linarith, by ring, ?_⟩
      unfold ray
      ext <;> simp only <;> ring
  have c2 : crossing ⟨s, s, s⟩ ⟨-1, -2, -3⟩ ⟨0 + 4, 0, 0⟩ ⟨0, 0, 0 + 4⟩ ⟨0, 0, 0⟩ = 0 := by
    unfold crossing
    rw [if_neg]
    rintro ⟨t, ht, α, β, γ, a1, a2, a3, a4, eq⟩
    have ex := congrArg Geom.V3.x eq
    have ey := congrArg Geom.V3.y eq
    have ez := congrArg Geom.V3.z eq
    simp only [ray] at ex ey ez
    linarith
  have c3 : crossing ⟨s, s, s⟩ ⟨-1, -2, -3⟩ ⟨0, 0, 0 + 4⟩ ⟨0, 0 + 4, 0⟩ ⟨0, 0, 0⟩ = 0 := by
    unfold crossing
    rw [if_neg]
    rintro ⟨t, ht, α, β, γ, a1, a2, a3, a4, eq⟩
    have ex := congrArg Geom.V3.x eq
    have ey := congrArg Geom.V3.y eq
    have ez := congrArg Geom.V3.z eq
    simp only [ray] at ex ey ez
    linarith
  have c4 : crossing ⟨s, s, s⟩ ⟨-1, -2, -3⟩ ⟨0, 0 + 4, 0⟩ ⟨0, 0, 0 + 4⟩ ⟨0 + 4, 0, 0⟩ = 0 := by
    unfold crossing
    rw [if_neg]
    rintro ⟨t, ht, α, β, γ, a1, a2, a3, a4, eq⟩
    have ex := congrArg Geom.V3.x eq
    have ey := congrArg Geom.V3.y eq
    have ez := congrArg Geom.V3.z eq
    simp only [ray] at ex ey ez
    linarith
  rw [c1, c2, c3, c4]
  norm_num

theorem tet_enclosed {s L : ℝ} (hs : 0 < s) (hL : 0 < L) (h : 3 * s + L < 4) (e e' : ℝ) : EnclosedBy (tet s L e) (tet 0 4 e') := by
  have hd : ∀ q, ¬(OnSurface (tet s L e) q ∧ OnSurface (tet 0 4 e') q) := fun q h' => tet_disjoint (by norm_num : (0:ℝ) < 4) hL hs (by linarith) q ⟨h'.2, h'.1⟩
  rw [enclosed_iff (tet_proper _ _ _) (tet_joined _ _ _) (tet_proper _ _ _) (tet_closed _ _ _) hd]
  have hq : ¬OnSurface (tet 0 4 e') ((tet s L e).mesh.pos 0) := fun h' => hd _ ⟨first_on (tet_proper _ _ _) (tet_joined _ _ _), h'⟩
  rw [isInside_iff (tet_proper _ _ _) (tet_closed _ _ _) hq, tet_p0]
  exact tet_inside hs (by linarith) e'

/-- The winding number of the first vertex of the tetrahedron with respect to the tetrahedron itself. -/
theorem tet_own (e : ℝ) : isInside ((tet 0 4 e).winding ((tet 0 4 e).mesh.pos 0)) = false := by
  have hf : faces (tet 0 4 e).mesh = [0, 1, 2, 3] := by
    rw [faces_eq]
    have B := tet_built 0 4
    have e1 : (tet 0 4 e).mesh.nF = 4 := B.nF
    have e2 : (tet 0 4 e).mesh.fRem = [] := B.fRem
    rw [e1, e2]; decide
  have zero : length (sub (⟨0, 0, 0⟩ : Vec) ⟨0, 0, 0⟩) = 0 := by simp [length, squaredLength, dot, sub]
  have z : ∀ a b : Vec, solidTri a b ⟨0, 0, 0⟩ ⟨0, 0, 0⟩ = 0 := by
    intro a b
    unfold solidTri
    simp only [zero, or_true, if_true]
  have half : ∀ a b c q : Vec, solidTri a b c q ≤ 1 / 2 := by
    intro a b c q
    unfold solidTri
    simp only
    split
    · norm_num
    · split
      · norm_num
      · unfold atan2
        rw [div_le_iff₀ (by positivity)]
        have := Complex.arg_le_pi (Complex.mk (1 + dot (vdiv (sub a q) (length (sub a q))) (vdiv (sub b q) (length (sub b q))) + dot (vdiv (sub a q) (length (sub a q))) (vdiv (sub c q) (length (sub c q))) +
          dot (vdiv (sub b q) (length (sub b q))) (vdiv (sub c q) (length (sub c q)))) (dot (vdiv (sub a q) (length (sub a q)))
          (cross (sub (vdiv (sub b q) (length (sub b q))) (vdiv (sub a q) (length (sub a q)))) (sub (vdiv (sub c q) (length (sub c q))) (vdiv (sub a q) (length (sub a q)))))))
        linarith
  have w : (tet 0 4 e).winding ((tet 0 4 e).mesh.pos 0) ≤ 1 / 2 := by
    unfold Body.winding windingNumber blockSum
    rw [hf]
    simp only [List.foldl_cons, List.foldl_nil, onFace, tet_v0, tet_v1, tet_v2, tet_v3]
    norm_num [tet_p0, tet_p1, tet_p2, tet_p3, z]
    have := half ⟨0, 4, 0⟩ ⟨0, 0, 4⟩ ⟨4, 0, 0⟩ ⟨0, 0, 0⟩
    linarith
  unfold isInside
  rw [decide_eq_false_iff_not, not_lt, abs_of_nonneg (by linarith)]
  unfold eps
  linarith

end Mcut.Winding
