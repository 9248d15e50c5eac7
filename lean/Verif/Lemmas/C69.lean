import Verif.Spec.C69
import Verif.Props.C65
import Verif.Props.C61
import Verif.Props.C63
import Verif.Props.C66

namespace Mcut.Whole
open Mcut.Hmesh Mcut.Registry Mcut.Pairs Mcut.Extract Mcut.Geom
variable {K : Type} [Field K] [LinearOrder K] [IsStrictOrderedRing K]

/-- The result of a test is unique, also when the segment is reversed; if it is not a miss the segment meets the triangle. -/
theorem result_unique {a b c : Geom.V3 K} {l : K} (T : Testable a b c l) (q r : Geom.V3 K) :
    ∃ t, EdgeFace [a, b, c] l q r (some t) ∧ (∀ t', EdgeFace [a, b, c] l q r (some t') ∨ EdgeFace [a, b, c] l r q (some t') → t' = t) ∧
      (t ≠ .miss → ∃ p, OnSeg3 q r p ∧ InTriangle a b c p) := by
  have hex : ∀ q r : Geom.V3 K, ∃ t, EdgeFace [a, b, c] l q r (some t) := by
    intro q r
    exact ⟨_, _, ⟨.found 0 1 2, by unfold ChooseThree; rw [if_neg (by simp)], rfl⟩, rfl⟩
  obtain ⟨t, ht⟩ := hex q r
  by_cases hp : OnPlaneOf a b c q ∧ OnPlaneOf a b c r
  · have key : ∀ t', (EdgeFace [a, b, c] l q r (some t') ∨ EdgeFace [a, b, c] l r q (some t')) →
        ((InTriangle a b c q ∨ InTriangle a b c r) → t' = .violation) ∧ (¬ (InTriangle a b c q ∨ InTriangle a b c r) → t' = .miss) := by
      intro t' h
      rcases h with h | h
      · have := C62_coplanar a b c l T.proper T.length T.regular q r hp.1 hp.2 _ h
        exact ⟨fun hh => Option.some.inj (this.1 hh), fun hh => Option.some.inj (this.2 (not_or.1 hh))⟩
      · have := C62_coplanar a b c l T.proper T.length T.regular r q hp.2 hp.1 _ h
        exact ⟨fun hh => Option.some.inj (this.1 hh.symm), fun hh => Option.some.inj (this.2 (not_or.1 hh).symm)⟩
    refine ⟨t, ht, fun t' h' => ?_, fun hne => ?_⟩
    · by_cases hh : InTriangle a b c q ∨ InTriangle a b c r
      · rw [(key t' h').1 hh, (key t (.inl ht)).1 hh]
      · rw [(key t' h').2 hh, (key t (.inl ht)).2 hh]
    · by_cases hh : InTriangle a b c q ∨ InTriangle a b c r
      · rcases hh with hh | hh
        · exact ⟨q, onSeg3_left _ _, hh⟩
        · exact ⟨r, onSeg3_swap.1 (onSeg3_left _ _), hh⟩
      · exact absurd ((key t (.inl ht)).2 hh) hne
  · have key : ∀ t', (EdgeFace [a, b, c] l q r (some t') ∨ EdgeFace [a, b, c] l r q (some t')) →
        (∀ p, t' = .point p ↔ ¬ OnPlaneOf a b c q ∧ ¬ OnPlaneOf a b c r ∧ OnSeg3 q r p ∧ StrictlyInside3 a b c p) ∧
        (t' = .miss ↔ ∀ p, OnSeg3 q r p → ¬ InTriangle a b c p) := by
      intro t' h
      rcases h with h | h
      · obtain ⟨t2, e, h1, h2, -⟩ := C62_triangle a b c l T.proper T.length T.regular q r hp _ h
        obtain rfl := Option.some.inj e
        exact ⟨h1, h2⟩
      · obtain ⟨t2, e, h1, h2, -⟩ := C62_triangle a b c l T.proper T.length T.regular r q (fun hh => hp hh.symm) _ h
        obtain rfl := Option.some.inj e
        refine ⟨fun p => ?_, ?_⟩
        · rw [h1 p, onSeg3_swap]; tauto
        · rw [h2]
          exact forall_congr' (fun p => by rw [onSeg3_swap])
    refine ⟨t, ht, fun t' h' => ?_, fun hne => ?_⟩
    · have k := key t (.inl ht); have k' := key t' h'
      cases hc : t with
      | miss => rw [hc] at k; exact k'.2.2 (k.2.1 rfl)
      | point p => rw [hc] at k; exact (k'.1 p).2 ((k.1 p).1 rfl)
      | violation =>
        cases hc' : t' with
        | violation => rfl
        | miss => rw [hc'] at k'; exact absurd (k.2.2 (k'.2.1 rfl)) (by rw [hc]; simp)
        | point p => rw [hc'] at k'; exact absurd ((k.1 p).2 ((k'.1 p).1 rfl)) (by rw [hc]; simp)
    · by_contra hno
      push Not at hno
      exact hne ((key t (.inl ht)).2.2 hno)

/-! ## Boxes -/

theorem mix3 {lo hi u v w x y z : K} (hu : 0 ≤ u) (hv : 0 ≤ v) (hw : 0 ≤ w) (hs : u + v + w = 1) (x1 : lo ≤ x) (x2 : x ≤ hi) (y1 : lo ≤ y) (y2 : y ≤ hi)
    (z1 : lo ≤ z) (z2 : z ≤ hi) : lo ≤ u * x + v * y + w * z ∧ u * x + v * y + w * z ≤ hi := by
  constructor
  · calc lo = u * lo + v * lo + w * lo := by rw [← add_mul, ← add_mul, hs, one_mul]
      _ ≤ _ := by gcongr
  · calc _ ≤ u * hi + v * hi + w * hi := by gcongr
      _ = hi := by rw [← add_mul, ← add_mul, hs, one_mul]

theorem mem_box_triangle {a b c : Box.V3 K} {B : Box.BBox K} (ha : Box.Mem a B) (hb : Box.Mem b B) (hc : Box.Mem c B) {p : Geom.V3 K}
    (h : InTriangle (pt a) (pt b) (pt c) p) : Box.Mem (unpt p) B := by
  obtain ⟨u, v, w, hu, hv, hw, hs, rfl⟩ := h
  obtain ⟨a1, a2, a3, a4, a5, a6⟩ := ha
  obtain ⟨b1, b2, b3, b4, b5, b6⟩ := hb
  obtain ⟨c1, c2, c3, c4, c5, c6⟩ := hc
  have x := mix3 hu hv hw hs a1 a2 b1 b2 c1 c2
  have y := mix3 hu hv hw hs a3 a4 b3 b4 c3 c4
  have z := mix3 hu hv hw hs a5 a6 b5 b6 c5 c6
  exact ⟨x.1, x.2, y.1, y.2, z.1, z.2⟩

theorem mem_box_segment {a b : Box.V3 K} {B : Box.BBox K} (ha : Box.Mem a B) (hb : Box.Mem b B) {p : Geom.V3 K}
    (h : OnSeg3 (pt a) (pt b) p) : Box.Mem (unpt p) B := by
  obtain ⟨t, h0, h1, rfl⟩ := h
  refine mem_box_triangle (a := a) (b := b) (c := b) ha hb hb ⟨1 - t, t, 0, by linarith, h0, le_refl _, by ring, ?_⟩
  simp only [lerp3, pt]
  congr 1 <;> ring

theorem boxOf_mem (bot top : K) (l : List (Box.V3 K)) {p : Box.V3 K} (h : p ∈ l) : Box.Mem p (Box.boxOfPoints bot top l) :=
  ((Box.foldl_point_sub l _ _).1 (Box.sub_refl _)).2 p h

theorem mem_sub {p : Box.V3 K} {A B : Box.BBox K} (h : Box.Mem p A) (hs : Box.Sub A B) : Box.Mem p B :=
  ⟨hs.1.trans h.1, h.2.1.trans hs.2.1, hs.2.2.1.trans h.2.2.1, h.2.2.2.1.trans hs.2.2.2.1, hs.2.2.2.2.1.trans h.2.2.2.2.1, h.2.2.2.2.2.trans hs.2.2.2.2.2⟩

theorem corners_three {ps : Mesh (Box.V3 K)} {g : Nat} {a b c : Geom.V3 K} (hc : corners ps g = [a, b, c]) :
    ∃ x y z, ps.verticesAroundFace g = [x, y, z] ∧ a = pt (ps.pos x) ∧ b = pt (ps.pos y) ∧ c = pt (ps.pos z) := by
  unfold corners at hc
  match hv : ps.verticesAroundFace g with
  | [] => rw [hv] at hc; simp at hc
  | [_] => rw [hv] at hc; simp at hc
  | [_, _] => rw [hv] at hc; simp at hc
  | [x, y, z] =>
    rw [hv] at hc
    simp only [List.map_cons, List.map_nil, List.cons.injEq, and_true] at hc
    exact ⟨x, y, z, rfl, hc.1.symm, hc.2.1.symm, hc.2.2.symm⟩
  | _ :: _ :: _ :: _ :: _ => rw [hv] at hc; simp at hc

/-- An edge and a face with a common point have boxes that meet. -/
theorem boxes_meet {bot top : K} {bS bC : Nat → Box.BBox K} {smF : Nat} {ps : Mesh (Box.V3 K)} (B : Boxed bot top bS bC smF ps) {e g : Nat} (hg : g < ps.numFaces)
    {a b c p : Geom.V3 K} (hc : corners ps g = [a, b, c]) (h1 : OnSeg3 (pt (ps.pos (ps.edgeVertex e 0))) (pt (ps.pos (ps.edgeVertex e 1))) p) (h2 : InTriangle a b c p) :
    Box.intersect (edgeBox bot top ps e) (if g < smF then bS g else bC (g - smF)) = true := by
  have m1 : Box.Mem (unpt p) (edgeBox bot top ps e) := mem_box_segment (boxOf_mem bot top _ (by simp)) (boxOf_mem bot top _ (by simp)) h1
  have m2 : Box.Mem (unpt p) (if g < smF then bS g else bC (g - smF)) := by
    refine mem_sub ?_ (B g hg)
    obtain ⟨x, y, z, hv, rfl, rfl, rfl⟩ := corners_three hc
    rw [hv]
    exact mem_box_triangle (boxOf_mem bot top _ (by simp)) (boxOf_mem bot top _ (by simp)) (boxOf_mem bot top _ (by simp)) h2
  exact (Box.C37_intersect_iff _ _ ⟨_, m1⟩ ⟨_, m2⟩).2 ⟨_, m1, m2⟩

/-! ## The edges of a triangle -/

theorem edgeOf_inj {h h' : Nat} (he : edgeOf h = edgeOf h') : h = h' ∨ h = opposite h' := by
  unfold edgeOf at he
  unfold opposite
  rcases Nat.mod_two_eq_zero_or_one h' with a | a
  · rw [if_pos a]; omega
  · rw [if_neg (by omega)]; omega

/-- Three different edges, which are the sides of the triangle in order, possibly reversed. -/
theorem tri_edges {d : Box.V3 K} {ps : Mesh (Box.V3 K)} (hr : Reachable d ps) (S : SimpleFaces ps) {g : Nat} (hg : LiveF ps g) {a b c : Geom.V3 K} (hc : corners ps g = [a, b, c]) :
    ∃ E : List Nat, E.Nodup ∧ (∀ e, OnFace ps e g ↔ e ∈ E) ∧ (∀ e ∈ E, LiveE ps e) ∧
      List.Forall₂ (fun (x : Geom.V3 K × Geom.V3 K) e => (x.1 = pt (ps.pos (ps.edgeVertex e 0)) ∧ x.2 = pt (ps.pos (ps.edgeVertex e 1))) ∨
        (x.2 = pt (ps.pos (ps.edgeVertex e 0)) ∧ x.1 = pt (ps.pos (ps.edgeVertex e 1)))) (edgesOf [a, b, c]) E := by
  obtain ⟨x, y, z, hv, rfl, rfl, rfl⟩ := corners_three hc
  have C := C29_consistent hr
  obtain ⟨h3, hnd, hall⟩ := C.face_list g hg
  obtain ⟨h0, h1, h2, hfh⟩ : ∃ h0 h1 h2, ps.fh g = [h0, h1, h2] := by
    have hlen : (ps.fh g).length = 3 := by
      have := congrArg List.length hv
      simpa [Mesh.verticesAroundFace] using this
    exact List.length_eq_three.1 hlen
  have ht : ps.target h0 = x ∧ ps.target h1 = y ∧ ps.target h2 = z := by
    unfold Mesh.verticesAroundFace at hv
    rw [hfh] at hv
    simpa using hv
  obtain ⟨rfl, rfl, rfl⟩ := ht
  have c0 := C29_cycle hr g hg 0 (by rw [hfh]; simp)
  have c1 := C29_cycle hr g hg 1 (by rw [hfh]; simp)
  have c2 := C29_cycle hr g hg 2 (by rw [hfh]; simp)
  rw [hfh] at c0 c1 c2 hnd hall
  simp only [List.length_cons, List.length_nil, Nat.reduceAdd, Nat.reduceMod, List.getElem?_cons_zero, List.getElem?_cons_succ, Option.some.injEq] at c0 c1 c2
  obtain ⟨a0, b0, rfl, rfl, -, -, s1⟩ := c0
  obtain ⟨a1, b1, rfl, rfl, -, -, s2⟩ := c1
  obtain ⟨a2, b2, rfl, rfl, -, -, s0⟩ := c2
  have side : ∀ h p, LiveH ps h → ps.source h = some p →
      ((pt (ps.pos p) = pt (ps.pos (ps.edgeVertex (edgeOf h) 0)) ∧ pt (ps.pos (ps.target h)) = pt (ps.pos (ps.edgeVertex (edgeOf h) 1))) ∨
        (pt (ps.pos (ps.target h)) = pt (ps.pos (ps.edgeVertex (edgeOf h) 0)) ∧ pt (ps.pos p) = pt (ps.pos (ps.edgeVertex (edgeOf h) 1)))) := by
    intro h p hl hs
    have := (C.opp h hl).2.2.2.2.2.1
    rw [hs] at this
    obtain rfl := Option.some.inj this
    unfold Mesh.edgeVertex edgeOf opposite
    rcases Nat.mod_two_eq_zero_or_one h with e | e
    · right
      rw [if_pos e, show h / 2 * 2 + 0 = h by omega, show h / 2 * 2 + 1 = h + 1 by omega]
      exact ⟨rfl, rfl⟩
    · left
      rw [if_neg (by omega), show h / 2 * 2 + 0 = h - 1 by omega, show h / 2 * 2 + 1 = h by omega]
      exact ⟨rfl, rfl⟩
  have l0 := (hall h0 (by simp)).1
  have l1 := (hall h1 (by simp)).1
  have l2 := (hall h2 (by simp)).1
  have hdist : ∀ h ∈ ps.fh g, ∀ h' ∈ ps.fh g, edgeOf h = edgeOf h' → h = h' := by
    intro h hh h' hh' he
    rcases edgeOf_inj he with e | e
    · exact e
    · rw [e] at hh; exact absurd hh (S g hg h' hh')
  rw [hfh] at hdist
  simp only [List.nodup_cons, List.mem_cons, List.not_mem_nil, or_false, not_or, List.nodup_nil, and_true, not_false_iff] at hnd
  refine ⟨[edgeOf h1, edgeOf h2, edgeOf h0], ?_, ?_, ?_, ?_⟩
  · simp only [List.nodup_cons, List.mem_cons, List.not_mem_nil, or_false, not_or, List.nodup_nil, and_true, not_false_iff]
    refine ⟨⟨fun e => hnd.2 (hdist _ (by simp) _ (by simp) e), fun e => hnd.1.1 (hdist _ (by simp) _ (by simp) e).symm⟩, fun e => hnd.1.2 (hdist _ (by simp) _ (by simp) e).symm⟩
  · intro e
    unfold OnFace
    rw [hfh]
    simp only [List.mem_cons, List.not_mem_nil, or_false, exists_eq_or_imp, exists_eq_left]
    tauto
  · intro e he
    simp only [List.mem_cons, List.not_mem_nil, or_false] at he
    rcases he with rfl | rfl | rfl
    · exact (C.opp _ l1).2.2.2.1
    · exact (C.opp _ l2).2.2.2.1
    · exact (C.opp _ l0).2.2.2.1
  · rw [edges_tri]
    exact .cons (side _ _ l1 s1) (.cons (side _ _ l2 s2) (.cons (side _ _ l0 s0) .nil))

/-! ## The tests of one side -/

open Classical in
/-- The point that the candidate pair `(e, g)` gives, if any. -/
noncomputable def hitOf (test : Nat → Nat → Outcome (Box.V3 K)) (cand : List (Nat × List Nat)) (e g : Nat) : Option (Geom.V3 K) :=
  if ∃ fs, (e, fs) ∈ cand ∧ g ∈ fs then
    match test e g with
    | .point p => some (pt p)
    | _ => none
  else none

theorem hitOf_iff {test : Nat → Nat → Outcome (Box.V3 K)} {cand : List (Nat × List Nat)} {e g : Nat} {p : Geom.V3 K} :
    hitOf test cand e g = some p ↔ (e, g, unpt p) ∈ hits test cand := by
  rw [C63_points]
  unfold hitOf
  by_cases h : ∃ fs, (e, fs) ∈ cand ∧ g ∈ fs
  · rw [if_pos h]
    cases ht : test e g with
    | miss => simp
    | violation => simp
    | point q =>
      simp only [Option.some.injEq, Outcome.point.injEq]
      constructor
      · rintro rfl; exact ⟨h, rfl⟩
      · rintro ⟨-, rfl⟩; rfl
  · rw [if_neg h]
    simp [h]

/-- All sides of one triangle against another face. -/
theorem side_results {d : Box.V3 K} {sm cs ps : Mesh (Box.V3 K)} (M : MergeOf d sm cs ps) {l : Nat → K} {test : Nat → Nat → Outcome (Box.V3 K)}
    (hT : TestOf ps l test) {bot top : K} {bS bC : Nat → Box.BBox K} (B : Boxed bot top bS bC sm.numFaces ps) {cand : List (Nat × List Nat)}
    (hc : CandidatesOf bot top bS bC sm.numFaces ps cand) (hno : ¬ Violated test cand) {g : Nat} (hg : g < ps.numFaces) {a b c : Geom.V3 K}
    (hcg : corners ps g = [a, b, c]) (T : Testable a b c (l g)) :
    ∀ (L : List (Geom.V3 K × Geom.V3 K)) (E : List Nat), (∀ e ∈ E, LiveE ps e ∧ ∃ f, f < ps.numFaces ∧ OnFace ps e f ∧ OtherSide sm.numFaces f g) →
      List.Forall₂ (fun (x : Geom.V3 K × Geom.V3 K) e => (x.1 = pt (ps.pos (ps.edgeVertex e 0)) ∧ x.2 = pt (ps.pos (ps.edgeVertex e 1))) ∨
        (x.2 = pt (ps.pos (ps.edgeVertex e 0)) ∧ x.1 = pt (ps.pos (ps.edgeVertex e 1)))) L E →
      ∃ rs, Tests [a, b, c] (l g) L rs ∧ some .violation ∉ rs ∧ points rs = E.filterMap (fun e => hitOf test cand e g) := by
  intro L E hE hF
  induction hF with
  | nil => exact ⟨[], .nil, by simp, rfl⟩
  | @cons x e L E hx hF ih =>
    obtain ⟨rs, r1, r2, r3⟩ := ih (fun e he => hE e (List.mem_cons_of_mem _ he))
    obtain ⟨hl, f, hf1, hf2, hf3⟩ := hE e List.mem_cons_self
    obtain ⟨t, t1, t2, t3⟩ := result_unique T x.1 x.2
    have hcand : (∃ fs, (e, fs) ∈ cand ∧ g ∈ fs) → test e g = outcome t := by
      intro _
      obtain ⟨r, e1, e2⟩ := hT e g hl hg
      rw [hcg] at e1
      rw [e2]
      congr 1
      apply t2
      rcases hx with ⟨x1, x2⟩ | ⟨x1, x2⟩
      · left; rw [x1, x2]; exact e1
      · right; rw [x1, x2]; exact e1
    have hmiss : (¬ ∃ fs, (e, fs) ∈ cand ∧ g ∈ fs) → t = .miss := by
      intro h
      by_contra hne
      obtain ⟨p, p1, p2⟩ := t3 hne
      refine h ((hc.pairs e g).2 ⟨⟨f, hf1, hf2, hg, hf3⟩, boxes_meet B hg hcg ?_ p2⟩)
      rcases hx with ⟨x1, x2⟩ | ⟨x1, x2⟩
      · rwa [← x1, ← x2]
      · rw [← x1, ← x2]; exact onSeg3_swap.1 p1
    refine ⟨some t :: rs, .cons t1 r1, ?_, ?_⟩
    · rw [List.mem_cons, not_or]
      refine ⟨?_, r2⟩
      intro hv
      have hv' : t = .violation := (Option.some.inj hv).symm
      subst hv'
      by_cases h : ∃ fs, (e, fs) ∈ cand ∧ g ∈ fs
      · obtain ⟨fs, f1, f2⟩ := id h
        exact hno ⟨(e, fs), f1, g, f2, hcand h⟩
      · exact absurd (hmiss h) (by simp)
    · have hh : hitOf test cand e g = registered (some t) := by
        unfold hitOf
        by_cases h : ∃ fs, (e, fs) ∈ cand ∧ g ∈ fs
        · rw [if_pos h, hcand h]
          cases t <;> rfl
        · rw [if_neg h, hmiss h]; rfl
      unfold points at r3 ⊢
      rw [List.filterMap_cons, List.filterMap_cons, hh, r3]

theorem onEdge_iff {d : Box.V3 K} {ps : Mesh (Box.V3 K)} (hr : Reachable d ps) {e g : Nat} (hg : LiveF ps g) : LiveE ps e ∧ OnEdge ps e g ↔ OnFace ps e g := by
  have C := C29_consistent hr
  constructor
  · rintro ⟨hl, h⟩
    have key : ∀ i, i < 2 → ps.face (halfedgeOf e i) = some g → OnFace ps e g := by
      intro i hi h
      have he : edgeOf (halfedgeOf e i) = e := by unfold edgeOf halfedgeOf; omega
      refine ⟨halfedgeOf e i, (C.chain _ g ?_ h).2.1, he⟩
      rw [(reachable_wf hr).liveH_iff]
      rw [show halfedgeOf e i / 2 = e from he]; exact hl
    rcases h with h | h
    · exact key 0 (by omega) h
    · exact key 1 (by omega) h
  · rintro ⟨h, hh, rfl⟩
    obtain ⟨hl, hf⟩ := (C.face_list g hg).2.2 h hh
    refine ⟨(C.opp h hl).2.2.2.1, ?_⟩
    unfold OnEdge halfedgeOf edgeOf
    rcases Nat.mod_two_eq_zero_or_one h with e | e
    · left; rw [show h / 2 * 2 + 0 = h by omega]; exact hf
    · right; rw [show h / 2 * 2 + 1 = h by omega]; exact hf

/-! ## The points of one pair of faces -/

/-- The position of point `v`. -/
def place (base : Nat) (pts : List (Box.V3 K)) (v : Nat) : Geom.V3 K := pt (pts.getD (v - base) ⟨0, 0, 0⟩)

theorem cut_points {ps : Mesh (Box.V3 K)} {smF base : Nat} {test : Nat → Nat → Outcome (Box.V3 K)} {cand : List (Nat × List Nat)} {t : Tables (Box.V3 K)}
    (T : Recorded ps smF base (hits test cand) t) (hnd : t.reg.Nodup) {s c : Nat} (hs : s < smF) (hc : smF ≤ c) {Es Ec : List Nat} (n1 : Es.Nodup) (n2 : Ec.Nodup)
    (hlive : ∀ x ∈ t.reg, LiveE ps x.1) (m1 : ∀ e, LiveE ps e ∧ OnEdge ps e s ↔ e ∈ Es) (m2 : ∀ e, LiveE ps e ∧ OnEdge ps e c ↔ e ∈ Ec) :
    ((t.cut (s, c)).map (place base t.pts)).Perm (Es.filterMap (fun e => hitOf test cand e c) ++ Ec.filterMap (fun e => hitOf test cand e s)) := by
  let L : List (Nat × Nat) := Es.map (fun e => (e, c)) ++ Ec.map (fun e => (e, s))
  have hL : L.Nodup := by
    refine List.Nodup.append (n1.map (fun a b h => (Prod.mk.inj h).1)) (n2.map (fun a b h => (Prod.mk.inj h).1)) ?_
    intro x h1 h2
    obtain ⟨e, -, rfl⟩ := List.mem_map.1 h1
    obtain ⟨e', -, h⟩ := List.mem_map.1 h2
    have := (Prod.mk.inj h).2
    omega
  let ho : Nat × Nat → Option (Geom.V3 K) := fun x => hitOf test cand x.1 x.2
  have hrhs : Es.filterMap (fun e => hitOf test cand e c) ++ Ec.filterMap (fun e => hitOf test cand e s) = L.filterMap ho := by
    simp only [L, List.filterMap_append, List.filterMap_map]; rfl
  rw [hrhs]
  obtain ⟨csort, cmem⟩ := T.cut s c
  have cnd : (t.cut (s, c)).Nodup := csort.imp (fun h => Nat.ne_of_lt h)
  let rv : Nat → Nat × Nat := fun v => t.reg.getD (v - base) (0, 0)
  have hrv : ∀ v ∈ t.cut (s, c), base ≤ v ∧ t.reg[v - base]? = some (rv v) ∧ rv v ∈ L ∧ ho (rv v) = some (place base t.pts v) := by
    intro v hv
    obtain ⟨i, e, f, rfl, hi, -, -, hor⟩ := (cmem v).1 hv
    have hr : rv (base + i) = (e, f) := by
      show t.reg.getD (base + i - base) (0, 0) = (e, f)
      rw [Nat.add_sub_cancel_left, List.getD_eq_getElem?_getD, hi]; rfl
    refine ⟨by omega, by rw [Nat.add_sub_cancel_left, hr]; exact hi, ?_, ?_⟩
    · rw [hr]
      simp only [L, List.mem_append, List.mem_map, Prod.mk.injEq]
      rcases hor with ⟨h, rfl⟩ | ⟨h, rfl⟩
      · exact .inl ⟨e, (m1 e).1 ⟨hlive _ (List.mem_of_getElem? hi), h⟩, rfl, rfl⟩
      · exact .inr ⟨e, (m2 e).1 ⟨hlive _ (List.mem_of_getElem? hi), h⟩, rfl, rfl⟩
    · rw [hr]
      show hitOf test cand e f = _
      rw [hitOf_iff]
      rw [T.reg, List.getElem?_map] at hi
      cases hR : (hits test cand)[i]? with
      | none => rw [hR] at hi; simp at hi
      | some x =>
        rw [hR] at hi
        simp only [Option.map_some, Option.some.injEq, Prod.mk.injEq] at hi
        obtain ⟨rfl, rfl⟩ := hi
        have : place base t.pts (base + i) = pt x.2.2 := by
          unfold place
          rw [T.pts, Nat.add_sub_cancel_left, List.getD_eq_getElem?_getD, List.getElem?_map, hR]; rfl
        rw [this]
        exact List.mem_of_getElem? hR
  have hA : ((t.cut (s, c)).map rv).Perm (L.filter (fun x => (ho x).isSome)) := by
    rw [List.perm_ext_iff_of_nodup]
    · intro x
      rw [List.mem_map, List.mem_filter]
      constructor
      · rintro ⟨v, hv, rfl⟩
        obtain ⟨-, -, h3, h4⟩ := hrv v hv
        exact ⟨h3, by rw [h4]; rfl⟩
      · rintro ⟨hx, hs'⟩
        obtain ⟨p, hp⟩ := Option.isSome_iff_exists.1 hs'
        have hp' := hitOf_iff.1 hp
        obtain ⟨i, hi⟩ := List.getElem?_of_mem hp'
        have hreg : t.reg[i]? = some x := by rw [T.reg, List.getElem?_map, hi]; rfl
        refine ⟨base + i, (cmem _).2 ⟨i, x.1, x.2, rfl, hreg, hs, hc, ?_⟩, ?_⟩
        · simp only [L, List.mem_append, List.mem_map] at hx
          rcases hx with ⟨e, he, rfl⟩ | ⟨e, he, rfl⟩
          · exact .inl ⟨((m1 e).2 he).2, rfl⟩
          · exact .inr ⟨((m2 e).2 he).2, rfl⟩
        · show t.reg.getD (base + i - base) (0, 0) = x
          rw [Nat.add_sub_cancel_left, List.getD_eq_getElem?_getD, hreg]; rfl
    · refine List.Nodup.map_on ?_ cnd
      intro v hv w hw hvw
      obtain ⟨b1, g1, -⟩ := hrv v hv
      obtain ⟨b2, g2, -⟩ := hrv w hw
      rw [← hvw] at g2
      have hlt : v - base < t.reg.length := (List.getElem?_eq_some_iff.1 g1).1
      have := (List.getElem?_inj hlt hnd).1 (g1.trans g2.symm)
      omega
    · exact hL.filter _
  have hB := hA.filterMap ho
  have e1 : ((t.cut (s, c)).map rv).filterMap ho = (t.cut (s, c)).map (place base t.pts) := by
    rw [List.filterMap_map]
    have : ∀ l : List Nat, (∀ v ∈ l, v ∈ t.cut (s, c)) → l.filterMap (ho ∘ rv) = l.map (place base t.pts) := by
      intro l
      induction l with
      | nil => intro _; rfl
      | cons v l ih =>
        intro h
        rw [List.filterMap_cons, List.map_cons, ← ih (fun w hw => h w (List.mem_cons_of_mem _ hw))]
        simp only [Function.comp, (hrv v (h v List.mem_cons_self)).2.2.2]
    exact this _ (fun _ h => h)
  have e2 : (L.filter (fun x => (ho x).isSome)).filterMap ho = L.filterMap ho := by
    rw [List.filterMap_filter]
    congr 1
    funext x
    by_cases h : (ho x).isSome
    · rw [if_pos h]
    · rw [if_neg h]; exact (Option.not_isSome_iff_eq_none.1 h).symm
  rwa [e1, e2] at hB

theorem perm_pair {α : Type*} {x y p q : α} (h : [x, y].Perm [p, q]) : (x = p ∧ y = q) ∨ (x = q ∧ y = p) := by
  have hx : x ∈ [p, q] := h.mem_iff.1 (by simp)
  simp only [List.mem_cons, List.not_mem_nil, or_false] at hx
  rcases hx with rfl | rfl
  · left
    have := (List.perm_cons x).1 h
    exact ⟨rfl, by simpa using this⟩
  · right
    have := (List.perm_cons x).1 (h.trans (List.Perm.swap _ _ _))
    exact ⟨rfl, by simpa using this⟩

end Mcut.Whole
