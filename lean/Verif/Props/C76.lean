import Verif.Lemmas.C76Demo

/-!
# C76: the polygons of the source mesh above and below the cut mesh
-/
namespace Mcut.Trace
open Mcut.Hmesh Mcut.Registry Mcut.CutEdges Mcut.Boundary Mcut.Extract
variable {P : Type} {d : P} {ps : Mesh P} {base : Nat} {pts : Nat → List Nat} {sort : Nat → Nat → List Nat → List Nat} {edges : List Nat} {c : CutEdges.St P} {st : Boundary.St P}
  {pieces : Nat → List Nat} {reg : List (Nat × Nat)} {smV smF : Nat}

/-- **C76 (above and below).** If no edge of an intersecting face has more than one intersection point, every intersection point of an edge is the end of a cut edge in each
face of the edge, and the sign test says for each part of an edge that ends in a point whether the edge passes down there, then nothing fails; the polygons above are exactly
those of the source mesh whose boundary passes down through the cut mesh, in ascending order, and each of them meets a polygon below. The polygons recorded as below do lie
below; when a polygon meets one below it then that one is recorded, unless the polygon itself is recorded as below. -/
theorem C76_sides_partial (G : Given d ps base pts sort edges c st pieces reg) (one : SimpleEdges ps) (part : (Nat → Bool) → List Nat → List Nat × List Nat) (hp : IsPartition part)
    (faces : List Nat) (hs : faces.Pairwise (· < ·)) (hfaces : ∀ f, f ∈ faces ↔ LiveF ps f) (few : ∀ f ∈ faces, c.faceEdges f ≠ [] → ∀ h ∈ ps.fh f, (pts (edgeOf h)).length ≤ 1)
    (two : ∀ e f g, e ∈ c.faceEdges f → e ∈ c.faceEdges g → (f < smF ↔ g < smF) → f = g) (X : Crossing ps smV smF base pts c reg) (falls : Nat → Nat → Nat → Option Bool) (down : Nat → Nat → Prop)
    (hfalls : ∀ h g x, Arrives ps st.m0 base pts sort pieces reg h g x → ∃ b, falls g (src st.m0 x) (st.m0.target x) = some b ∧ (b = true ↔ down h g)) :
    ∃ o T A B, sequential ps st smF base reg part faces = some o ∧ users st.m0.numHalfedges o.polygons = some T ∧ Used ps smF pts sort pieces c st.m0 o T ∧
      sides ps st.m0 smV smF base (2 * c.m0.nE) reg falls T o = some (A, B) ∧ A.Pairwise (· < ·) ∧ B.Pairwise (· ≤ ·) ∧
      (∀ i, i ∈ A ↔ IsAbove ps st.m0 smF base pts sort pieces reg down o i) ∧ (∀ i ∈ A, ∃ j, Meet ps st.m0 smF base pts sort pieces reg c down o i j) ∧
      (∀ j, IsBelow ps st.m0 smF base pts sort pieces reg down o j ↔ ∃ i, Meet ps st.m0 smF base pts sort pieces reg c down o i j) ∧
      (∀ j ∈ B, IsBelow ps st.m0 smF base pts sort pieces reg down o j) ∧ (∀ i j, Meet ps st.m0 smF base pts sort pieces reg c down o i j → j ∈ B ∨ i ∈ B) := by
  classical
  let poly : Nat → List (List Nat) := fun f => (facePolygons ps st base reg part f).getD []
  have hpoly : ∀ f ∈ faces, facePolygons ps st base reg part f = some (poly f) ∧ FaceUses ps pts sort pieces c st.m0 f (poly f) := by
    intro f hf
    obtain ⟨l, h1, h2⟩ := G.uses hp ((hfaces f).1 hf) one (few f hf)
    have : poly f = l := by simp only [poly, h1, Option.getD_some]
    rw [this]; exact ⟨h1, h2⟩
  have hcross : ∀ f ∈ faces, FaceCross ps pts sort pieces c st.m0 f (poly f) := fun f hf => G.cross hp ((hfaces f).1 hf) one (few f hf) X.ends (hpoly f hf).1
  have hnd : faces.Nodup := hs.imp (fun h => Nat.ne_of_lt h)
  obtain ⟨o, e, L⟩ := listed_all (smF := smF) (c := c) faces [] Out.empty listed_empty (fun f hf => ⟨(hpoly f hf).1, G.entry_iff ((hfaces f).1 hf)⟩)
  rw [List.nil_append] at L
  obtain ⟨T, hT, Us⟩ := used_of G hnd hfaces L (fun f hf => (hpoly f hf).2) two
  have V : ∀ i ∈ o.sm, ∃ p, o.polygons[i]? = some p ∧ ∀ x ∈ p.zipIdx, ∃ r, verdict ps st.m0 smV smF base (2 * c.m0.nE) reg falls T o.smCount p x.1 x.2 = some r ∧
      ∀ j, r = some j ↔ MeetAt ps st.m0 smF base pts sort pieces reg c down o i j p x.1 := by
    intro i hi
    obtain ⟨f, hf, -⟩ := (L.sm.2 i).1 hi
    obtain ⟨p, hp'⟩ := L.poly_of hf
    exact ⟨p, hp', fun x hx => verdict_spec G X hs hfaces L (fun f hf => (hpoly f hf).2) hcross Us hfalls hi hp' (List.mem_zipIdx_iff_getElem?.1 hx)⟩
  let R : Nat → Nat × Nat → Option Nat := fun i x => (verdict ps st.m0 smV smF base (2 * c.m0.nE) reg falls T o.smCount ((o.polygons[i]?).getD []) x.1 x.2).getD none
  have VR : ∀ i ∈ o.sm, ∃ p, o.polygons[i]? = some p ∧ ∀ x ∈ p.zipIdx, verdict ps st.m0 smV smF base (2 * c.m0.nE) reg falls T o.smCount p x.1 x.2 = some (R i x) ∧
      ∀ j, R i x = some j ↔ MeetAt ps st.m0 smF base pts sort pieces reg c down o i j p x.1 := by
    intro i hi
    obtain ⟨p, hp', h⟩ := V i hi
    refine ⟨p, hp', fun x hx => ?_⟩
    obtain ⟨r, h1, h2⟩ := h x hx
    have : R i x = r := by simp only [R, hp', Option.getD_some, h1]
    rw [this]; exact ⟨h1, h2⟩
  obtain ⟨ev, hev, hsides⟩ := sides_eq (R := R) (fun i hi => by obtain ⟨p, h1, h2⟩ := VR i hi; exact ⟨p, h1, fun x hx => (h2 x hx).1⟩)
  have hmeet : ∀ i j, (i, j) ∈ ev ↔ Meet ps st.m0 smF base pts sort pieces reg c down o i j := by
    intro i j
    rw [hev, meet_iff]
    constructor
    · rintro ⟨hi, p, hp', x, hx, hR⟩
      obtain ⟨p', h1, h2⟩ := VR i hi
      rw [hp'] at h1
      obtain rfl := Option.some.inj h1
      exact ⟨p, x.1, hp', List.mem_of_getElem? (List.mem_zipIdx_iff_getElem?.1 hx), ((h2 x hx).2 j).1 hR⟩
    · rintro ⟨p, x, hp', hx, hm⟩
      obtain ⟨f, q, y, z, h, g, h1, h2, h3, h4, h5, h6, h7, h8⟩ := id hm
      have hi : i ∈ o.sm := (L.sm.2 i).2 ⟨f, h1, h3, fun h0 => by rw [h0] at h7; cases h7⟩
      obtain ⟨p', k1, k2⟩ := VR i hi
      rw [hp'] at k1
      obtain rfl := Option.some.inj k1
      obtain ⟨k, hk⟩ := List.mem_iff_getElem?.1 hx
      have hz : (x, k) ∈ p.zipIdx := List.mem_zipIdx_iff_getElem?.2 hk
      exact ⟨hi, p, hp', (x, k), hz, ((k2 _ hz).2 j).2 hm⟩
  obtain ⟨m1, m2, m3, m4⟩ := marks_spec ev
  have hA := above_iff (reg := reg) (smF := smF) G hfaces L (fun f hf => (hpoly f hf).2) hcross (down := down)
  have hB := below_iff (reg := reg) (smF := smF) G hfaces L (fun f hf => (hpoly f hf).2) hcross (down := down)
  have hperm := fun l : List Nat => List.mergeSort_perm l (fun a b => decide (a ≤ b))
  refine ⟨o, T, _, _, e, hT, Us, hsides, ?_, sort_le _, ?_, ?_, hB, ?_, ?_⟩
  · have h1 := sort_le ((ev.foldl (fun s e => mark e.1 s e.2) ([], [])).1)
    have h2 : (((ev.foldl (fun s e => mark e.1 s e.2) ([], [])).1).mergeSort (fun a b => decide (a ≤ b))).Nodup := (hperm _).nodup_iff.2 m1
    exact List.Pairwise.imp (fun h => Nat.lt_of_le_of_ne h.1 h.2) (h1.and h2)
  · intro i
    rw [(hperm _).mem_iff, m2, hA]
    exact exists_congr (fun j => hmeet i j)
  · intro i hi
    rw [(hperm _).mem_iff, m2] at hi
    obtain ⟨j, hj⟩ := hi
    exact ⟨j, (hmeet i j).1 hj⟩
  · intro j hj
    rw [(hperm _).mem_iff] at hj
    obtain ⟨i, hi⟩ := m3 j hj
    exact (hB j).2 ⟨i, (hmeet i j).1 hi⟩
  · intro i j hij
    rw [(hperm _).mem_iff, (hperm _).mem_iff]
    exact m4 i j ((hmeet i j).2 hij)

/-- **C76 (exactly the polygons below).** If moreover no polygon lies both above and below, then the polygons recorded as below are exactly those below. -/
theorem C76_below_partial (G : Given d ps base pts sort edges c st pieces reg) (one : SimpleEdges ps) (part : (Nat → Bool) → List Nat → List Nat × List Nat) (hp : IsPartition part)
    (faces : List Nat) (hs : faces.Pairwise (· < ·)) (hfaces : ∀ f, f ∈ faces ↔ LiveF ps f) (few : ∀ f ∈ faces, c.faceEdges f ≠ [] → ∀ h ∈ ps.fh f, (pts (edgeOf h)).length ≤ 1)
    (two : ∀ e f g, e ∈ c.faceEdges f → e ∈ c.faceEdges g → (f < smF ↔ g < smF) → f = g) (X : Crossing ps smV smF base pts c reg) (falls : Nat → Nat → Nat → Option Bool) (down : Nat → Nat → Prop)
    (hfalls : ∀ h g x, Arrives ps st.m0 base pts sort pieces reg h g x → ∃ b, falls g (src st.m0 x) (st.m0.target x) = some b ∧ (b = true ↔ down h g)) :
    ∃ o T A B, sequential ps st smF base reg part faces = some o ∧ users st.m0.numHalfedges o.polygons = some T ∧ sides ps st.m0 smV smF base (2 * c.m0.nE) reg falls T o = some (A, B) ∧
      ((∀ i, ¬ (IsAbove ps st.m0 smF base pts sort pieces reg down o i ∧ IsBelow ps st.m0 smF base pts sort pieces reg down o i)) →
        ∀ j, j ∈ B ↔ IsBelow ps st.m0 smF base pts sort pieces reg down o j) := by
  obtain ⟨o, T, A, B, e, hT, -, hS, -, -, hA, -, hB, hsub, hm⟩ := C76_sides_partial G one part hp faces hs hfaces few two X falls down hfalls
  refine ⟨o, T, A, B, e, hT, hS, fun hno j => ⟨hsub j, fun hj => ?_⟩⟩
  obtain ⟨i, hi⟩ := (hB j).1 hj
  rcases hm i j hi with h | h
  · exact h
  · refine absurd ⟨?_, hsub i h⟩ (hno i)
    obtain ⟨f, p, q, x, y, z, h1, g, h2, h3, h4, h5, h6, ⟨k, h7, h8⟩, h9, h10, h11, h12, h13⟩ := hi
    exact ⟨f, p, x, h1, g, h2, h4, h5, List.mem_of_getElem? h7, h11, h13⟩

/-- **C76 (where it starts).** After the earlier stages (C60, C63, C66), for valid input meshes, when every pair of faces has exactly two points, every intersection point of an
edge is the end of a cut edge in each face of the edge, and the registry names an edge of one mesh and a face of the other one. -/
theorem C76_crossing {sm cs : Mesh P} (M : MergeOf d sm cs ps) (hs : Preproc.ValidMesh sm.numVertices (polygons sm)) (hc : Preproc.ValidMesh cs.numVertices (polygons cs))
    (R : List (Nat × Nat × P)) (t : Tables P) (T : Recorded ps sm.numFaces ps.numVertices R t) (hx : CrossTested ps sm.numFaces t.reg)
    (h2 : ∀ k, t.cut k ≠ [] → (t.cut k).length = 2) (keys : List (Nat × Nat)) (hkeys : ∀ k, k ∈ keys ↔ t.cut k ≠ []) (csort : List Nat → List Nat)
    (inside : Nat → Nat → Nat → Bool)
    (hst : cutEdges ps ps.numVertices t.reg csort inside t.cut keys (addPoints (copyVertices d ps).1 t.pts) = some c) :
    Crossing ps sm.numVertices sm.numFaces ps.numVertices t.edges c t.reg := crossing_of M hs hc R t T hx h2 keys hkeys csort inside hst

section triangles
open Mcut.Whole
variable {K : Type} [Field K] [LinearOrder K] [IsStrictOrderedRing K] {d : Box.V3 K} {sm cs ps : Mesh (Box.V3 K)} {c : CutEdges.St (Box.V3 K)} {st : Boundary.St (Box.V3 K)}

/-- **C76 (triangles).** For triangle meshes in general position (the setting of C69), in exact arithmetic: if no edge of an intersecting face has more than one intersection
point, two faces have at most one common edge and two edges never have the same ends, then the polygons recorded as above are exactly those of the source mesh that have, on
their boundary, a part of an edge that comes from the front of a triangle of the cut mesh and ends where it passes through to the back. -/
theorem C76_triangles_partial (M : MergeOf d sm cs ps) (hs : Preproc.ValidMesh sm.numVertices (polygons sm)) (hc : Preproc.ValidMesh cs.numVertices (polygons cs)) {l : Nat → K}
    (G : Triangles ps sm.numFaces l) {test : Nat → Nat → Outcome (Box.V3 K)} (hT : TestOf ps l test) {bot top : K} {bS bC : Nat → Box.BBox K}
    (B : Boxed bot top bS bC sm.numFaces ps) {cand : List (Nat × List Nat)} (hcand : Whole.CandidatesOf bot top bS bC sm.numFaces ps cand) (hno : ¬ Violated test cand)
    {t : Tables (Box.V3 K)} (T : Recorded ps sm.numFaces ps.numVertices (hits test cand) t)
    (keys : List (Nat × Nat)) (hkeys : ∀ k, k ∈ keys ↔ t.cut k ≠ []) (csort : List Nat → List Nat) (inside : Nat → Nat → Nat → Bool)
    (hst : cutEdges ps ps.numVertices t.reg csort inside t.cut keys (addPoints (copyVertices d ps).1 t.pts) = some c)
    (A : Arranges ps t.edges sort) (hl : AllEdges ps edges) (D : Divided d ps ps.numVertices t.edges sort edges c st pieces) (common : OneCommonEdge ps) (one : SimpleEdges ps)
    (part : (Nat → Bool) → List Nat → List Nat × List Nat) (hp : IsPartition part) (faces : List Nat) (hsf : faces.Pairwise (· < ·)) (hfaces : ∀ f, f ∈ faces ↔ LiveF ps f)
    (few : ∀ f ∈ faces, c.faceEdges f ≠ [] → ∀ h ∈ ps.fh f, (t.edges (edgeOf h)).length ≤ 1)
    (normal : Nat → Option (Geom.V3 K)) (hn : ∀ r ∈ t.reg, normal r.2 = some (Geom.planeCoefficients (corners ps r.2)).1) :
    ∃ o U above below, sequential ps st sm.numFaces ps.numVertices t.reg part faces = some o ∧ users st.m0.numHalfedges o.polygons = some U ∧
      sides ps st.m0 sm.numVertices sm.numFaces ps.numVertices (2 * c.m0.nE) t.reg (fallsOf normal (fun v => pt (st.m0.pos v))) U o = some (above, below) ∧ above.Pairwise (· < ·) ∧
      (∀ i, i ∈ above ↔ IsAbove ps st.m0 sm.numFaces ps.numVertices t.edges sort pieces t.reg (PassesDown ps) o i) ∧
      (∀ j ∈ below, IsBelow ps st.m0 sm.numFaces ps.numVertices t.edges sort pieces t.reg (PassesDown ps) o j) ∧
      (∀ i j, Meet ps st.m0 sm.numFaces ps.numVertices t.edges sort pieces t.reg c (PassesDown ps) o i j → j ∈ below ∨ i ∈ below) := by
  obtain ⟨hnd, hx, h2, -⟩ := C69_pairs M hs hc G hT B hcand hno T
  have h2' : ∀ k, t.cut k ≠ [] → (t.cut k).length = 2 := fun k hk => (h2 k hk).1
  have Gv := C71_given M hs hc _ t T hx hnd h2' keys hkeys csort inside c hst A hl D
  have X := crossing_of M hs hc _ t T hx h2' keys hkeys csort inside hst
  have two := (C73_two_faces M hs hc _ t T hx hnd h2' keys hkeys csort inside c hst common).2
  obtain ⟨o, U, a, b, e, hU, -, hS, h1, -, hA, -, -, hB, hm⟩ := C76_sides_partial Gv one part hp faces hsf hfaces few two X (fallsOf normal (fun v => pt (st.m0.pos v))) (PassesDown ps)
    (fun h g x Ar => falls_of M hs hc G hT B hcand hno T keys hkeys csort inside hst Gv (fun f hf => few f ((hfaces f).2 hf)) hn Ar)
  exact ⟨o, U, a, b, e, hU, hS, h1, hA, hB, hm⟩

end triangles

open Mcut.Floating Mcut.Pairs

/-- The hypotheses are met: two triangles cut off opposite corners of a quadrangle. The corner at vertex 0 (polygon 0) lies above the first triangle, and the part in the middle
(polygon 1) below it and above the second one. -/
theorem C76_demo : ∃ pieces, Given () quadPs 10 quadTables.edges demoSort (List.range 10) quadCut quadSt pieces quadTables.reg ∧ SimpleEdges quadPs ∧ [0, 1, 2].Pairwise (· < ·) ∧
    (∀ f, f ∈ [0, 1, 2] ↔ LiveF quadPs f) ∧ (∀ f ∈ [0, 1, 2], quadCut.faceEdges f ≠ [] → ∀ h ∈ quadPs.fh f, (quadTables.edges (edgeOf h)).length ≤ 1) ∧
    (∀ e f g, e ∈ quadCut.faceEdges f → e ∈ quadCut.faceEdges g → (f < 1 ↔ g < 1) → f = g) ∧ Crossing quadPs 4 1 10 quadTables.edges quadCut quadTables.reg ∧
    (∀ h g x, Arrives quadPs quadSt.m0 10 quadTables.edges demoSort pieces quadTables.reg h g x →
      ∃ b, quadFalls g (src quadSt.m0 x) (quadSt.m0.target x) = some b ∧ (b = true ↔ quadDown h g)) ∧
    sequential quadPs quadSt 1 10 quadTables.reg keeping [0, 1, 2] = some quadOut ∧
    quadOut.polygons = [[7, 0, 17], [5, 11, 2, 13, 19, 1], [9, 15, 3], [20, 22, 24], [26, 28, 30]] ∧
    (users quadSt.m0.numHalfedges quadOut.polygons).bind (fun T => sides quadPs quadSt.m0 4 1 10 (2 * quadCut.m0.nE) quadTables.reg quadFalls T quadOut) = some ([0, 1], [1]) := by
  obtain ⟨pieces, G, X, two⟩ := quad_given
  exact ⟨pieces, G, quad_simple, by decide, quad_faces, quad_few, two, X, quad_falls G, some_getD (by decide +kernel), by decide +kernel, quad_sides⟩

/-- A polygon below is not recorded: where the neighbour should be looked for in the list of the polygons below, the current polygon is looked for (source/kernel.cpp:6810). The
quadrangle is divided by two triangles; the part in the middle (polygon 1) lies below the one and above the other one, and the part below it (polygon 2) is not recorded. -/
theorem C76_below_missed_fails : ∃ pieces, Given () quadPs 10 quadTables.edges demoSort (List.range 10) quadCut quadSt pieces quadTables.reg ∧
    Meet quadPs quadSt.m0 1 10 quadTables.edges demoSort pieces quadTables.reg quadCut quadDown quadOut 1 2 ∧
    (users quadSt.m0.numHalfedges quadOut.polygons).bind (fun T => sides quadPs quadSt.m0 4 1 10 (2 * quadCut.m0.nE) quadTables.reg quadFalls T quadOut) = some ([0, 1], [1]) := by
  obtain ⟨pieces, G, -, -⟩ := quad_given
  exact ⟨pieces, G, quad_meet G, quad_sides⟩

end Mcut.Trace
