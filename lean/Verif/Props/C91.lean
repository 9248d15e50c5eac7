import Verif.Props.C89
import Mathlib.Tactic.LinearCombination

/-!
# C91: corners at the same place
-/
namespace Mcut.Cdt
open Mcut.Geom Mcut.Hmesh Mcut.Preproc

/-- **C91.** `find_duplicates` finds the points that have been there before, and numbers the places. -/
theorem C91_find {V : Type} [DecidableEq V] (pts : List V) : Ties pts (findDuplicates pts).1 (findDuplicates pts).2 := findDuplicates_ties pts

/-- The number that a duplicate gets is not that of the first point at its place, but less by the number of duplicates before that one: it is a number in the list without duplicates. -/
theorem C91_partner {V : Type} [DecidableEq V] (pts : List V) {k j : Nat} (hk : k < pts.length) (h : FirstAt pts k j) :
    k ∈ (findDuplicates pts).2 ∧ (findDuplicates pts).1[k]? = some (j - ((findDuplicates pts).2.filter (· < j)).length) := by
  have T := findDuplicates_ties pts
  obtain ⟨h1, h2, h3⟩ := h
  refine ⟨(T.dups k).2 ⟨hk, j, h1, h2⟩, ?_⟩
  have hj : j ∉ (findDuplicates pts).2 := fun hj => by
    obtain ⟨-, i, h4, h5⟩ := (T.dups j).1 hj
    exact h3 i h4 (h5.trans h2)
  rw [(T.same k j hk (by omega)).2 h2.symm]
  exact T.number j (by omega) hj

variable {K : Type} [Field K] [LinearOrder K]

theorem sqLength2_eq_zero [IsStrictOrderedRing K] {v : V2 K} (h : sqLength2 v = 0) : v.x = 0 ∧ v.y = 0 := by
  unfold sqLength2 at h
  have hx := mul_self_nonneg v.x
  have hy := mul_self_nonneg v.y
  constructor <;> rw [← mul_self_eq_zero] <;> linarith

theorem displaced_some [IsStrictOrderedRing K] (sq : K → K) {Q : List (V2 K)} {k j : Nat} (hp : at2 Q (if k = 0 then Q.length - 1 else k - 1) = at2 Q k → j = if k = 0 then Q.length - 1 else k - 1)
    (hn : at2 Q ((k + 1) % Q.length) = at2 Q k → j = (k + 1) % Q.length) : ∃ p, displaced sq Q k j = some p := by
  unfold displaced
  simp only
  obtain ⟨pr, epr⟩ : ∃ pr, pr = if k = 0 then Q.length - 1 else k - 1 := ⟨_, rfl⟩
  rw [← epr] at hp ⊢
  obtain ⟨p, ep⟩ : ∃ p, p = at2 Q k := ⟨_, rfl⟩
  obtain ⟨a, ea⟩ : ∃ a, a = at2 Q pr := ⟨_, rfl⟩
  obtain ⟨b, eb⟩ : ∃ b, b = at2 Q ((k + 1) % Q.length) := ⟨_, rfl⟩
  rw [← ep, ← ea] at hp
  rw [← ep, ← eb] at hn
  rw [← ep, ← ea, ← eb]
  by_cases hadj : j = pr ∨ (k + 1) % Q.length = j
  · exact ⟨_, if_pos hadj⟩
  · rw [if_neg hadj]
    rw [not_or] at hadj
    have np : a ≠ p := fun h => hadj.1 (hp h)
    have nn : b ≠ p := fun h => hadj.2 (hn h).symm
    rw [if_neg]
    · exact ⟨_, rfl⟩
    · intro h0
      obtain ⟨hx, hy⟩ := sqLength2_eq_zero h0
      by_cases ho : absK (orient2d p b a) ≤ 1 / 100
      · rw [if_pos ho] at hx hy
        simp only at hx hy
        split at hx
        · rename_i hc
          rw [if_pos hc] at hy
          simp only [minus2] at hx hy
          exact nn (V2.ext (by linarith) (by linarith))
        · rename_i hc
          rw [if_neg hc] at hy
          simp only [minus2] at hx hy
          exact np (V2.ext (by linarith) (by linarith))
      · rw [if_neg ho] at hx hy
        refine ho ?_
        have key : ∀ s : K, s ≠ 0 → (a.x - p.x + (b.x - p.x)) * (1 / 2) * s = 0 → a.x - p.x + (b.x - p.x) = 0 := by
          intro s hs h
          rcases mul_eq_zero.1 h with h | h
          · rcases mul_eq_zero.1 h with h | h
            · exact h
            · norm_num at h
          · exact absurd h hs
        have key' : ∀ s : K, s ≠ 0 → (a.y - p.y + (b.y - p.y)) * (1 / 2) * s = 0 → a.y - p.y + (b.y - p.y) = 0 := by
          intro s hs h
          rcases mul_eq_zero.1 h with h | h
          · rcases mul_eq_zero.1 h with h | h
            · exact h
            · norm_num at h
          · exact absurd h hs
        have hs : (if orient2d p b a < 0 then -1 else 1 : K) ≠ 0 := by split <;> norm_num
        have ex := key _ hs hx
        have ey := key' _ hs hy
        have o0 : orient2d p b a = 0 := by
          unfold orient2d
          linear_combination (b.x - p.x) * ey - (b.y - p.y) * ex
        rw [o0, absK, if_neg (lt_irrefl _)]
        norm_num

/-- If there is only one duplicate, the other point is the right one, and the corner is moved: to the middle of its other edge, if the two are neighbours. -/
theorem C91_one_tie [IsStrictOrderedRing K] (sq : K → K) {Q : List (V2 K)} {k j : Nat} (hk : k < Q.length) (h : FirstAt Q k j) (one : ∀ i i', i < i' → i' < Q.length → Q[i]? = Q[i']? → i' = k) :
    (findDuplicates Q).2 = [k] ∧ (findDuplicates Q).1[k]? = some j ∧
    (∃ p, breakTies sq Q = some (Q.set k p)) ∧
    (k = j + 1 → breakTies sq Q = some (Q.set k (plus2 (at2 Q k) (times2 (minus2 (at2 Q ((k + 1) % Q.length)) (at2 Q k)) (1 / 2))))) := by
  have T := findDuplicates_ties Q
  obtain ⟨h1, h2, h3⟩ := h
  have d1 : (findDuplicates Q).2 = [k] := by
    have hm : ∀ x, x ∈ (findDuplicates Q).2 ↔ x = k := by
      intro x
      rw [T.dups]
      constructor
      · rintro ⟨hx, i, h4, h5⟩; exact one i x h4 hx h5
      · rintro rfl; exact ⟨hk, j, h1, h2⟩
    have nd : (findDuplicates Q).2.Nodup := T.sorted.imp fun h => by omega
    refine List.perm_singleton.1 ((List.perm_ext_iff_of_nodup nd (List.nodup_singleton k)).2 fun x => ?_)
    rw [hm, List.mem_singleton]
  have d2 : (findDuplicates Q).1[k]? = some j := by
    have := (C91_partner Q hk ⟨h1, h2, h3⟩).2
    rw [d1] at this
    rw [this]
    have : [k].filter (· < j) = [] := by rw [List.filter_eq_nil_iff]; intro a ha; rw [List.mem_singleton] at ha; subst ha; simp; omega
    rw [this]; rfl
  have bt : breakTies sq Q = (displaced sq Q k j).map (fun p => Q.set k p) := by
    unfold breakTies
    rw [d1, List.foldlM_cons, List.getD_eq_getElem?_getD, d2, Option.getD_some]
    cases displaced sq Q k j <;> rfl
  have only : ∀ i, i < Q.length → i ≠ k → at2 Q i = at2 Q k → j = i := by
    intro i hi hik e
    have e' : Q[i]? = Q[k]? := by rw [at2_getElem hi, at2_getElem hk] at e; rw [List.getElem?_eq_getElem hi, List.getElem?_eq_getElem hk, e]
    rcases Nat.lt_trichotomy i j with h | h | h
    · exact absurd e' (h3 i h)
    · exact h.symm
    · by_cases hki : i < k
      · exact absurd (one j i h hi (h2.trans e'.symm)) hik
      · exact absurd (one k i (by omega) hi e'.symm) hik
  refine ⟨d1, d2, ?_, ?_⟩
  · obtain ⟨p, hp⟩ := displaced_some sq (Q := Q) (k := k) (j := j) (fun e => only _ (by split <;> omega) (by split <;> omega) e) (fun e => only _ (Nat.mod_lt _ (by omega)) (by
      intro hk'
      by_cases hl : k + 1 < Q.length
      · rw [Nat.mod_eq_of_lt hl] at hk'; omega
      · rw [show k + 1 = Q.length by omega, Nat.mod_self] at hk'; omega) e)
    exact ⟨p, by rw [bt, hp]; rfl⟩
  · rintro rfl
    rw [bt]
    unfold displaced
    simp only
    rw [if_neg (show ¬ j + 1 = 0 by omega), Nat.add_sub_cancel, if_pos (.inl rfl), if_pos rfl]
    rfl

variable [IsStrictOrderedRing K]

/-- C91, for a square root that is good enough. -/
theorem any_face_exact {pts : List (V3 K)} {fs : List (List Nat)} {cc : Mesh (V3 K)} (C : Component ⟨0, 0, 0⟩ pts fs cc) {i : Nat} {f : List Nat} (hi : fs[i]? = some f) (N : NoChord fs i)
    {sq : K → K} {big : K} (hsq : ∀ R : List (V2 K), R.Nodup → R.length = f.length → Placed (places sq big R) (3 + R.length)) (walk : St → Nat → Nat) {pick : List (Nat × Nat) → Nat × Nat} (hpick : ∀ l, l ≠ [] → pick l ∈ l) :
    ∃ flipped Q, Q = (if flipped then (flattened sq (corners cc i)).reverse else flattened sq (corners cc i)) ∧
    ((∃ R out ts, breakTies sq Q = some R ∧ triangulateFace sq big walk pick cc i = some out ∧ Tiles (at2 R) f.length ts ∧ SameTris (faceVertex f.length flipped) ts out ∧
        (Fills f.length out ∨ (∀ g ∈ fs, ¬Across f g) ∧ Fills f.length (out.map List.reverse))) ∨
     (∃ R, breakTies sq Q = some R ∧ ¬R.Nodup ∧ triangulateFace sq big walk pick cc i = some []) ∨
     (triangulateFace sq big walk pick cc i = none ∧ (breakTies sq Q = none ∨ ∃ R, breakTies sq Q = some R ∧ R.Nodup ∧ (SearchFails sq big walk R ∨ EdgeMissing sq big walk R)))) := by
  have B := C.built
  have fl : (cc.verticesAroundFace i).length = f.length := by rw [vaf B hi, List.length_rotate]
  obtain ⟨Q0, hQ⟩ : ∃ Q, Q = flattened sq (corners cc i) := ⟨_, rfl⟩
  obtain ⟨flipped, hfl⟩ : ∃ b, b = decide (turnSum Q0 < 0) := ⟨_, rfl⟩
  obtain ⟨Q, hR⟩ : ∃ R, R = if flipped = true then Q0.reverse else Q0 := ⟨_, rfl⟩
  have Ql : Q0.length = f.length := by rw [hQ, flattened, corners]; simp only [List.length_map]; exact fl
  have Rl : Q.length = f.length := by rw [hR]; split <;> simp [Ql]
  have et : triangulateFace sq big walk pick cc i = (breakTies sq Q).bind fun R => if (findDuplicates R).2 = [] then triangulateCorners sq big walk pick cc i flipped R else some [] := by
    unfold triangulateFace
    simp only
    rw [show (cc.verticesAroundFace i).map cc.pos = corners cc i from rfl, ← hQ, ← hfl, ← hR]
  refine ⟨flipped, Q, by rw [hR, hQ], ?_⟩
  cases hb : breakTies sq Q with
  | none => exact .inr (.inr ⟨by rw [et, hb]; rfl, .inl rfl⟩)
  | some R =>
    rw [hb, Option.bind_some] at et
    have l : R.length = f.length := (breakTies_length hb).trans Rl
    by_cases nd : R.Nodup
    · rw [if_pos (no_duplicates.2 nd)] at et
      rcases corners_exact C hi N l (hsq R nd l) flipped walk hpick with ⟨out, ts, eo, TL, S, H⟩ | ⟨en, h⟩
      · exact .inl ⟨R, out, ts, rfl, by rw [et, eo], TL, S, H⟩
      · exact .inr (.inr ⟨by rw [et, en], .inr ⟨R, rfl, nd, h⟩⟩)
    · rw [if_neg (fun h => nd (no_duplicates.1 h))] at et
      exact .inr (.inl ⟨R, rfl, nd, et⟩)

/-- **C91.** Whatever the places of the corners of a face (several at the same place, not in a plane, without area): the face is triangulated as a whole, with its direction — and the triangles tile the polygon of the corners as they have been moved —, or it is skipped as a
whole, because two corners are still at the same place, or the triangulator cannot go on. Missing: as in C89; a corner that is moved to "not a number" is only told apart, not followed. -/
theorem C91_face_partial {pts : List (V3 K)} {fs : List (List Nat)} {cc : Mesh (V3 K)} (C : Component ⟨0, 0, 0⟩ pts fs cc) {i : Nat} {f : List Nat} (hi : fs[i]? = some f) (N : NoChord fs i)
    {sq : K → K} (hsq : ∀ x, 0 ≤ x → 0 ≤ sq x ∧ sq x * sq x = x) (big : K) (walk : St → Nat → Nat) {pick : List (Nat × Nat) → Nat × Nat} (hpick : ∀ l, l ≠ [] → pick l ∈ l) :
    ∃ flipped Q, Q = (if flipped then (flattened sq (corners cc i)).reverse else flattened sq (corners cc i)) ∧
    ((∃ R out ts, breakTies sq Q = some R ∧ triangulateFace sq big walk pick cc i = some out ∧ Tiles (at2 R) f.length ts ∧ SameTris (faceVertex f.length flipped) ts out ∧
        (Fills f.length out ∨ (∀ g ∈ fs, ¬Across f g) ∧ Fills f.length (out.map List.reverse))) ∨
     (∃ R, breakTies sq Q = some R ∧ ¬R.Nodup ∧ triangulateFace sq big walk pick cc i = some []) ∨
     (triangulateFace sq big walk pick cc i = none ∧ (breakTies sq Q = none ∨ ∃ R, breakTies sq Q = some R ∧ R.Nodup ∧ (SearchFails sq big walk R ∨ EdgeMissing sq big walk R)))) := by
  refine any_face_exact C hi N (fun R nd l => placed_super hsq big nd ?_) walk hpick
  have := (C.1 f (List.mem_of_getElem? hi)).1
  omega

/-! ## Examples -/

/-- A mesh with a single face, with all its vertices in their order. -/
def alone (pts : List (V3 ℚ)) : Mesh (V3 ℚ) := (addFaces (addVertices (Mesh.empty ⟨0, 0, 0⟩) pts) [List.range pts.length]).1

theorem alone_component {pts : List (V3 ℚ)} (h : 3 ≤ pts.length) : Component ⟨0, 0, 0⟩ pts [List.range pts.length] (alone pts) := by
  have g : ∀ f ∈ [List.range pts.length], Preproc.GoodFace pts.length f := by
    intro f hf
    rw [List.mem_singleton] at hf
    subst hf
    exact ⟨by simpa using h, List.nodup_range, fun v hv => List.mem_range.1 hv⟩
  refine component_of_addFaces g ((addFaces_spec _ [] _ (built_vertices _ _) g (by simp)).1.2 ?_)
  rw [List.nil_append, List.flatMap_cons, List.flatMap_nil, List.append_nil]
  exact cycPairs_nodup _ List.nodup_range

/-- A triangle with a slit: the first two corners are at the same place. -/
def oneTie : List (V3 ℚ) := [⟨0, 0, 0⟩, ⟨0, 0, 0⟩, ⟨4, 0, 0⟩, ⟨0, 4, 0⟩]

/-- A triangle, two corners of which are there twice. -/
def twoTies : List (V3 ℚ) := [⟨0, 0, 0⟩, ⟨4, 0, 0⟩, ⟨0, 4, 0⟩, ⟨0, 4, 0⟩, ⟨0, 0, 0⟩]

/-- `sqrt`, sufficiently exact. -/
def tieRoot (x : ℚ) : ℚ := if x = 256 then 16 else if x = 3 then 7 / 4 else 17 / 3

def tieSearch (s : St) (v : Nat) : Nat :=
  let P := places tieRoot 1000000 [⟨0, 0⟩, ⟨0, -4⟩, ⟨4, 0⟩, ⟨2, 0⟩]
  s.tris.findIdx (fun t => decide (locate (P v) (P (t.v 0)) (P (t.v 1)) (P (t.v 2)) ≠ .outside))

/-- The corner is moved, and the face is triangulated. -/
theorem C91_demo : Component ⟨0, 0, 0⟩ oneTie [List.range 4] (alone oneTie) ∧ breakTies tieRoot (flattened tieRoot (corners (alone oneTie) 0)).reverse = some [⟨0, 0⟩, ⟨0, -4⟩, ⟨4, 0⟩, ⟨2, 0⟩] ∧
    triangulateFace tieRoot 1000000 tieSearch (fun l => l.headD (0, 0)) (alone oneTie) 0 = some [[2, 0, 3], [2, 1, 0]] :=
  ⟨alone_component (by decide), by decide +kernel, by decide +kernel⟩

/-- With two pairs, the second one is taken for something else, because the number of its partner is a number in the list without duplicates: the corner becomes "not a number" (a vector of length 0 is divided by its length). The face has an area. -/
theorem C91_pairs_fails : Component ⟨0, 0, 0⟩ twoTies [List.range 5] (alone twoTies) ∧ polygonNormal twoTies = ⟨0, 0, 16⟩ ∧
    findDuplicates (flattened tieRoot (corners (alone twoTies) 0)) = ([0, 1, 1, 2, 2], [2, 4]) ∧
    ∀ big walk pick, triangulateFace tieRoot big walk pick (alone twoTies) 0 = none := by
  refine ⟨alone_component (by decide), by decide +kernel, by decide +kernel, fun big walk pick => ?_⟩
  have h : breakTies tieRoot (if decide (turnSum (flattened tieRoot (((alone twoTies).verticesAroundFace 0).map (alone twoTies).pos)) < 0) = true then (flattened tieRoot (((alone twoTies).verticesAroundFace 0).map (alone twoTies).pos)).reverse
      else flattened tieRoot (((alone twoTies).verticesAroundFace 0).map (alone twoTies).pos)) = none := by decide +kernel
  unfold triangulateFace
  simp only
  rw [h]
  rfl

end Mcut.Cdt
