import Verif.Lemmas.C89Face
import Verif.Lemmas.C91
import Verif.Props.C88

/-!
# C89: triangulating a face
-/
namespace Mcut.Cdt
open Mcut.Geom Mcut.Hmesh Mcut.Preproc
variable {K : Type} [Field K] [LinearOrder K] [IsStrictOrderedRing K]

theorem at2_getElem {R : List (V2 K)} {v : Nat} (h : v < R.length) : at2 R v = R[v] := by
  unfold at2; rw [List.getD_eq_getElem?_getD, List.getElem?_eq_getElem h, Option.getD_some]

theorem faceVertex_lt {n v : Nat} (flipped : Bool) (h : v < n) : faceVertex n flipped v < n := by
  unfold faceVertex; split <;> omega

theorem SameTris.turn {g : Nat → Nat} {ts : List Tri} {out : List (List Nat)} (S : SameTris g ts out) : SameTris g ts (out.map List.reverse) := by
  obtain ⟨kept, order, h, S⟩ := S
  refine ⟨!kept, order, h, ?_⟩
  rw [List.forall₂_map_right_iff]
  refine S.imp fun k f hf => ?_
  obtain ⟨t, h1, rfl⟩ := hf
  refine ⟨t, h1, ?_⟩
  cases kept <;> rfl

/-- The projected corners are at different places. -/
theorem flattened_nodup {sq : K → K} {vs : List (V3 K)} (hl : IsLength (polygonNormal vs) (sq (dot (polygonNormal vs) (polygonNormal vs)))) (FL : Flat vs) : (flattened sq vs).Nodup := by
  obtain ⟨c1, c2⟩ := comp_largest FL.area
  refine FL.distinct.map_on ?_
  intro x hx y hy h
  exact (C58_injective_iff hl c2 c1).2 FL.direction x y (FL.planar x hx y hy) h

theorem places_corner (sq : K → K) (big : K) (R : List (V2 K)) : (fun v => places sq big R (v + 3)) = at2 R := by
  funext v
  simp only [places]
  rw [if_neg (by omega), Nat.add_sub_cancel, at2, List.getD_eq_getElem?_getD]

/-- The triangulator, for any places of the corners. -/
theorem corners_exact {pts : List (V3 K)} {fs : List (List Nat)} {cc : Mesh (V3 K)} (C : Component ⟨0, 0, 0⟩ pts fs cc) {i : Nat} {f : List Nat} (hi : fs[i]? = some f) (N : NoChord fs i)
    {sq : K → K} {big : K} {R : List (V2 K)} (Rl : R.length = f.length) (P : Placed (places sq big R) (3 + R.length)) (flipped : Bool) (walk : St → Nat → Nat) {pick : List (Nat × Nat) → Nat × Nat} (hpick : ∀ l, l ≠ [] → pick l ∈ l) :
    (∃ out ts, triangulateCorners sq big walk pick cc i flipped R = some out ∧ Tiles (at2 R) f.length ts ∧ SameTris (faceVertex f.length flipped) ts out ∧ (Fills f.length out ∨ (∀ g ∈ fs, ¬Across f g) ∧ Fills f.length (out.map List.reverse))) ∨
    (triangulateCorners sq big walk pick cc i flipped R = none ∧ (SearchFails sq big walk R ∨ EdgeMissing sq big walk R)) := by
  have three := (C.1 f (List.mem_of_getElem? hi)).1
  have three' : 3 ≤ R.length := by omega
  unfold triangulateCorners
  rcases C85_insert_partial P walk with ⟨s, es, T⟩ | ⟨en, m, s, hm, e1, -, e2⟩
  swap
  · exact .inr ⟨by rw [en]; rfl, .inl ⟨m, s, hm, e1, e2⟩⟩
  rw [Nat.add_comm] at P T
  cases ei : insertEdges s R.length with
  | none =>
    refine .inr ⟨by rw [es, Option.bind_some, ei]; rfl, .inr ⟨s, es, ?_⟩⟩
    by_contra hc
    push Not at hc
    obtain ⟨fixed, e⟩ := C87_insert_succeeds_partial three' T hc
    rw [ei] at e
    cases e
  | some fixed =>
    left
    obtain ⟨FE, O⟩ := C87_insert_partial three' T ei
    obtain ⟨old, d, ed, E, top⟩ := C86_erase P T FE
    obtain ⟨d', ed', TL⟩ := C87_tiles three' P T FE O
    obtain rfl : d = d' := Option.some.inj (ed.symm.trans ed')
    have ne : d.tris.isEmpty = false := by
      rw [List.isEmpty_eq_false_iff]
      intro h
      have := TL.count
      rw [h] at this
      simp at this
      omega
    have hp : pick d.fixed ∈ d.fixed := by
      refine hpick _ fun h => ?_
      have : edge 0 1 ∈ d.fixed := (E.fixed_edges 0 1).2 ((O.fix _ _).2 ⟨0, by omega, by rw [Nat.mod_eq_of_lt (by omega)]⟩)
      rw [h] at this
      cases this
    rw [Nat.add_sub_cancel] at top
    rw [places_corner, Rl] at TL
    rw [Rl] at P T FE O
    obtain ⟨out, eo, S, H⟩ := C88_emit_partial C hi N P T FE O ed flipped hp
    refine ⟨out, d.tris, ?_, TL, S, H⟩
    rw [es, Option.bind_some, ei, Option.bind_some, ed, Option.bind_some, top, Option.bind_some, ne]
    exact eo

/-- C89, for a square root that is good enough. -/
theorem face_exact {pts : List (V3 K)} {fs : List (List Nat)} {cc : Mesh (V3 K)} (C : Component ⟨0, 0, 0⟩ pts fs cc) {i : Nat} {f : List Nat} (hi : fs[i]? = some f) (N : NoChord fs i)
    {sq : K → K} {big : K} (X : Exact sq big (corners cc i)) (FL : Flat (corners cc i)) (walk : St → Nat → Nat) {pick : List (Nat × Nat) → Nat × Nat} (hpick : ∀ l, l ≠ [] → pick l ∈ l) :
    (∃ out, triangulateFace sq big walk pick cc i = some out ∧
      (Fills f.length out ∧ Covers (polygonNormal (corners cc i)) (at3 (corners cc i)) out ∨
        (∀ g ∈ fs, ¬Across f g) ∧ Fills f.length (out.map List.reverse) ∧ Covers (polygonNormal (corners cc i)) (at3 (corners cc i)) (out.map List.reverse))) ∨
    (triangulateFace sq big walk pick cc i = none ∧
      ∃ R, (R = flattened sq (corners cc i) ∨ R = (flattened sq (corners cc i)).reverse) ∧ (SearchFails sq big walk R ∨ EdgeMissing sq big walk R)) := by
  have B := C.built
  have gf := C.1 f (List.mem_of_getElem? hi)
  have three := gf.1
  have evf := vaf B hi
  have fl : (cc.verticesAroundFace i).length = f.length := by rw [evf, List.length_rotate]
  obtain ⟨vs, hvs⟩ : ∃ vs, vs = corners cc i := ⟨_, rfl⟩
  have vl : vs.length = f.length := by rw [hvs, corners, List.length_map, fl]
  rw [← hvs] at FL X ⊢
  obtain ⟨Q, hQ⟩ : ∃ Q, Q = flattened sq vs := ⟨_, rfl⟩
  obtain ⟨flipped, hfl⟩ : ∃ b, b = decide (turnSum Q < 0) := ⟨_, rfl⟩
  obtain ⟨R, hR⟩ : ∃ R, R = if flipped = true then Q.reverse else Q := ⟨_, rfl⟩
  have Ql : Q.length = f.length := by rw [hQ, flattened]; simp only [List.length_map]; exact vl
  have Rl : R.length = f.length := by rw [hR]; split <;> simp [Ql]
  have Qn : Q.Nodup := by rw [hQ]; exact flattened_nodup X.length FL
  have Rn : R.Nodup := by rw [hR]; split; exact List.nodup_reverse.2 Qn; exact Qn
  have Ror : R = flattened sq vs ∨ R = (flattened sq vs).reverse := by
    rw [← hQ, hR]; split
    · exact .inr rfl
    · exact .inl rfl
  have et : triangulateFace sq big walk pick cc i = triangulateCorners sq big walk pick cc i flipped R := by
    unfold triangulateFace
    simp only
    rw [show (cc.verticesAroundFace i).map cc.pos = vs from hvs.symm, ← hQ, ← hfl, ← hR, breakTies_nodup sq Rn, Option.bind_some, if_pos (no_duplicates.2 Rn)]
  rw [et]
  rcases corners_exact C hi N Rl (X.placed R Ror) flipped walk hpick with ⟨out, ts, eo, TL, S, H⟩ | ⟨en, h⟩
  swap
  · exact .inr ⟨en, R, Ror, h⟩
  · left
    have at' : ∀ v < vs.length, at2 R v = project (polygonNormal vs) (sq (dot (polygonNormal vs) (polygonNormal vs))) (largestComponent (polygonNormal vs)) (at3 vs (faceVertex f.length flipped v)) := by
      intro v hv
      have hvR : v < R.length := by omega
      rw [at2_getElem hvR]
      have q : ∀ w, (h : w < Q.length) → Q[w] = project (polygonNormal vs) (sq (dot (polygonNormal vs) (polygonNormal vs))) (largestComponent (polygonNormal vs)) (at3 vs w) := by
        intro w hw
        have hw' : w < vs.length := by omega
        have e : Q[w]? = some (project (polygonNormal vs) (sq (dot (polygonNormal vs) (polygonNormal vs))) (largestComponent (polygonNormal vs)) (at3 vs w)) := by
          rw [hQ, flattened, planeCoefficients]
          simp only
          rw [List.getElem?_map, List.getElem?_eq_getElem hw', at3, List.getD_eq_getElem?_getD, List.getElem?_eq_getElem hw']
          rfl
        exact (List.getElem?_eq_some_iff.1 e).2
      have e : R[v]? = some (project (polygonNormal vs) (sq (dot (polygonNormal vs) (polygonNormal vs))) (largestComponent (polygonNormal vs)) (at3 vs (faceVertex f.length flipped v))) := by
        rw [hR]
        unfold faceVertex
        split
        · rw [List.getElem?_reverse (by omega), Ql, List.getElem?_eq_getElem (by omega), q]
        · rw [List.getElem?_eq_getElem (by omega), q]
      exact (List.getElem?_eq_some_iff.1 e).2
    rw [← vl] at TL H S
    have cov : ∀ out', SameTris (faceVertex vs.length flipped) ts out' → Fills vs.length out' → Covers (polygonNormal vs) (at3 vs) out' := fun out' S' F' =>
      covers (by omega) FL X.length (fun v hv => faceVertex_lt flipped hv) (by rw [vl] at *; exact at') TL S' F'
    refine ⟨out, eo, ?_⟩
    rw [← vl]
    rcases H with H | ⟨h1, h2⟩
    · exact .inl ⟨H, cov out S H⟩
    · exact .inr ⟨h1, h2, cov _ S.turn h2⟩

/-- An exact square root is good enough. -/
theorem exact_of_root {sq : K → K} (hsq : ∀ x, 0 ≤ x → 0 ≤ sq x ∧ sq x * sq x = x) (big : K) {vs : List (V3 K)} (FL : Flat vs) (two : 2 ≤ vs.length) : Exact sq big vs := by
  have hl := isLength_sq hsq FL.area
  have nd := flattened_nodup hl FL
  have l : (flattened sq vs).length = vs.length := by rw [flattened]; simp
  refine ⟨hl, fun R hR => placed_super hsq big ?_ ?_⟩
  · rcases hR with rfl | rfl
    · exact nd
    · exact List.nodup_reverse.2 nd
  · rcases hR with rfl | rfl
    · omega
    · rw [List.length_reverse]; omega

/-- **C89.** Either the triangulation of a flat face is the face — the triangles fill the outline, all face the same side as the face, they do not overlap and have the same area altogether; only for a face without neighbours the orientation may be
the opposite one —, or the triangulator cannot go on: there is no other case. Missing: the edges that have to be forced into the triangulation; corners at the same place; rounding. -/
theorem C89_face_partial {pts : List (V3 K)} {fs : List (List Nat)} {cc : Mesh (V3 K)} (C : Component ⟨0, 0, 0⟩ pts fs cc) {i : Nat} {f : List Nat} (hi : fs[i]? = some f) (N : NoChord fs i)
    {sq : K → K} (hsq : ∀ x, 0 ≤ x → 0 ≤ sq x ∧ sq x * sq x = x) (FL : Flat (corners cc i)) (big : K) (walk : St → Nat → Nat) {pick : List (Nat × Nat) → Nat × Nat} (hpick : ∀ l, l ≠ [] → pick l ∈ l) :
    (∃ out, triangulateFace sq big walk pick cc i = some out ∧
      (Fills f.length out ∧ Covers (polygonNormal (corners cc i)) (at3 (corners cc i)) out ∨
        (∀ g ∈ fs, ¬Across f g) ∧ Fills f.length (out.map List.reverse) ∧ Covers (polygonNormal (corners cc i)) (at3 (corners cc i)) (out.map List.reverse))) ∨
    (triangulateFace sq big walk pick cc i = none ∧
      ∃ R, (R = flattened sq (corners cc i) ∨ R = (flattened sq (corners cc i)).reverse) ∧ (SearchFails sq big walk R ∨ EdgeMissing sq big walk R)) := by
  have B := C.built
  have l : (corners cc i).length = f.length := by rw [corners, List.length_map, vaf B hi, List.length_rotate]
  have := (C.1 f (List.mem_of_getElem? hi)).1
  exact face_exact C hi N (exact_of_root hsq big FL (by omega)) FL walk hpick

/-! ## Examples -/

/-- The L-shaped face with a triangle at each edge, in space. -/
def elPlaces (K : Type) [Field K] : List (V3 K) := [⟨0, 0, 0⟩, ⟨4, 0, 0⟩, ⟨4, 2, 0⟩, ⟨2, 2, 0⟩, ⟨2, 4, 0⟩, ⟨0, 4, 0⟩, ⟨1, 1, 1⟩]

def elSpace (K : Type) [Field K] : Mesh (V3 K) := (addFaces (addVertices (Mesh.empty ⟨0, 0, 0⟩) (elPlaces K)) elFaces).1

theorem elSpace_component (K : Type) [Field K] : Component ⟨0, 0, 0⟩ (elPlaces K) elFaces (elSpace K) := by
  have g : ∀ f ∈ elFaces, Preproc.GoodFace (elPlaces K).length f := by
    unfold Preproc.GoodFace
    rw [show (elPlaces K).length = 7 from rfl]
    decide
  exact component_of_addFaces g ((addFaces_spec elFaces [] _ (built_vertices _ _) g (by simp)).1.2 (by decide +kernel))

theorem elSpace_corners (K : Type) [Field K] : corners (elSpace K) 0 = [⟨0, 0, 0⟩, ⟨4, 0, 0⟩, ⟨4, 2, 0⟩, ⟨2, 2, 0⟩, ⟨2, 4, 0⟩, ⟨0, 4, 0⟩] := by
  have B := (elSpace_component K).built
  unfold corners
  rw [vaf B (j := 0) (f := [5, 0, 1, 2, 3, 4]) rfl]
  have p : ∀ (v : Nat) (x : V3 K), (elPlaces K)[v]? = some x → (elSpace K).pos v = x := fun v x h => B.pos v x h
  simp only [List.rotate_cons_succ, List.rotate_zero, List.cons_append, List.nil_append, List.map_cons, List.map_nil]
  rw [p 0 _ rfl, p 1 _ rfl, p 2 _ rfl, p 3 _ rfl, p 4 _ rfl, p 5 _ rfl]

/-- The hypotheses are met, with real numbers and their square roots. -/
theorem C89_flat_demo : Component ⟨0, 0, 0⟩ (elPlaces ℝ) elFaces (elSpace ℝ) ∧ NoChord elFaces 0 ∧ Flat (corners (elSpace ℝ) 0) ∧ ∀ x : ℝ, 0 ≤ x → 0 ≤ √x ∧ √x * √x = x := by
  refine ⟨elSpace_component ℝ, el_nochord, ?_, fun x hx => ⟨Real.sqrt_nonneg x, Real.mul_self_sqrt hx⟩⟩
  rw [elSpace_corners]
  have e : polygonNormal ([⟨0, 0, 0⟩, ⟨4, 0, 0⟩, ⟨4, 2, 0⟩, ⟨2, 2, 0⟩, ⟨2, 4, 0⟩, ⟨0, 4, 0⟩] : List (V3 ℝ)) = ⟨0, 0, 24⟩ := by
    norm_num [polygonNormal, normalFrom, add3, Geom.cross, sub3]
  refine ⟨?_, ?_, ?_, ?_⟩
  · simp [V3.ext_iff]
  · rw [e]
    intro x hx y hy
    simp only [List.mem_cons, List.not_mem_nil, or_false] at hx hy
    rcases hx with rfl | rfl | rfl | rfl | rfl | rfl <;> rcases hy with rfl | rfl | rfl | rfl | rfl | rfl <;> simp [SamePlane]
  · rw [e]; simp [V3.ext_iff]
  · rw [e]
    simp [Singular, largestComponent]

/-- `sqrt`, sufficiently exact. -/
def elRoot (x : ℚ) : ℚ := if x = 576 then 24 else if x = 3 then 7 / 4 else 17 / 3

/-- The projection goes around the L the other way; the list has been reversed. -/
def elTurned : List (V2 ℚ) := [⟨0, -4⟩, ⟨2, -4⟩, ⟨2, -2⟩, ⟨4, -2⟩, ⟨4, 0⟩, ⟨0, 0⟩]

def elSearch (s : St) (v : Nat) : Nat :=
  let P := places elRoot 1000000 elTurned
  s.tris.findIdx (fun t => decide (locate (P v) (P (t.v 0)) (P (t.v 1)) (P (t.v 2)) ≠ .outside))

/-- An L-shaped face is triangulated; all four triangles face the same side as the face. -/
theorem C89_demo : ∃ out, triangulateFace elRoot 1000000 elSearch (fun l => l.headD (0, 0)) (elSpace ℚ) 0 = some out ∧ out = [[5, 0, 3], [3, 0, 1], [3, 1, 2], [3, 4, 5]] :=
  ⟨_, by decide +kernel, rfl⟩

end Mcut.Cdt
