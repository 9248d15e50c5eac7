import Verif.Lemmas.C73
import Verif.Props.C71

/-!
# C73: the polygons that use a halfedge
-/
namespace Mcut.Trace
open Mcut.Hmesh Mcut.Registry Mcut.CutEdges Mcut.Boundary Mcut.Extract
variable {P : Type} {d : P} {ps : Mesh P} {base : Nat} {pts : Nat → List Nat} {sort : Nat → Nat → List Nat → List Nat} {edges : List Nat} {c : CutEdges.St P} {st : Boundary.St P}
  {pieces : Nat → List Nat} {reg : List (Nat × Nat)}

/-- **C73 (the table).** For any polygons: if all halfedges are in range then the table lists for every halfedge, in ascending order, the polygons it occurs in, as often as it
occurs. -/
theorem C73_table (n : Nat) (l : List (List Nat)) (hn : ∀ p ∈ l, ∀ h ∈ p, h < n) : ∃ T, users n l = some T ∧ ∀ x, (T x).Pairwise (· ≤ ·) ∧ ∀ i, (T x).count i = ((l[i]?).getD []).count x := by
  obtain ⟨T, e, h⟩ := usersFrom_spec n l 0 (fun _ => []) hn
  refine ⟨T, e, fun x => ?_⟩
  rw [h x, List.nil_append]
  have gen : ∀ (l : List (List Nat)) (k : Nat), (usersOf x k l).Pairwise (· ≤ ·) ∧ (∀ i ∈ usersOf x k l, k ≤ i) ∧ ∀ i, (usersOf x k l).count (k + i) = ((l[i]?).getD []).count x := by
    intro l
    induction l with
    | nil => intro k; simp [usersOf]
    | cons p l ih =>
      intro k
      obtain ⟨h1, h2, h3⟩ := ih (k + 1)
      unfold usersOf
      refine ⟨?_, ?_, ?_⟩
      · rw [List.pairwise_append]
        refine ⟨?_, h1, ?_⟩
        · rw [List.pairwise_replicate]; right; exact Nat.le_refl _
        · intro a ha b hb
          rw [(List.mem_replicate.1 ha).2]
          have := h2 b hb; omega
      · intro i hi
        rcases List.mem_append.1 hi with hi | hi
        · rw [(List.mem_replicate.1 hi).2]
        · have := h2 i hi; omega
      · intro i
        rw [List.count_append, List.count_replicate]
        cases i with
        | zero =>
          have : (usersOf x (k + 1) l).count k = 0 := List.count_eq_zero.2 (fun hm => by have := h2 k hm; omega)
          simp [this]
        | succ i =>
          have := h3 i
          rw [show k + 1 + i = k + (i + 1) by omega] at this
          rw [this]
          simp
  obtain ⟨h1, -, h3⟩ := gen l 0
  exact ⟨h1, fun i => by have := h3 i; rwa [Nat.zero_add] at this⟩

/-- **C73 (the use of the halfedges).** If no edge of an intersecting face has more than one intersection point, two edges never have the same ends and a cut edge lies in at
most one face of each mesh, then all polygons are traced, the table is computed without an access out of range, and the halfedges are used as they should be. -/
theorem C73_used_partial (G : Given d ps base pts sort edges c st pieces reg) (one : SimpleEdges ps) (part : (Nat → Bool) → List Nat → List Nat × List Nat) (hp : IsPartition part)
    (smF : Nat) (faces : List Nat) (hnd : faces.Nodup) (hfaces : ∀ f, f ∈ faces ↔ LiveF ps f) (few : ∀ f ∈ faces, c.faceEdges f ≠ [] → ∀ h ∈ ps.fh f, (pts (edgeOf h)).length ≤ 1)
    (two : ∀ e f g, e ∈ c.faceEdges f → e ∈ c.faceEdges g → (f < smF ↔ g < smF) → f = g) :
    ∃ o T, sequential ps st smF base reg part faces = some o ∧ users st.m0.numHalfedges o.polygons = some T ∧ Used ps smF pts sort pieces c st.m0 o T := by
  classical
  let poly : Nat → List (List Nat) := fun f => (facePolygons ps st base reg part f).getD []
  have hpoly : ∀ f ∈ faces, facePolygons ps st base reg part f = some (poly f) ∧ FaceUses ps pts sort pieces c st.m0 f (poly f) := by
    intro f hf
    obtain ⟨l, h1, h2⟩ := G.uses hp ((hfaces f).1 hf) one (few f hf)
    have : poly f = l := by simp only [poly, h1, Option.getD_some]
    rw [this]; exact ⟨h1, h2⟩
  obtain ⟨o, e, L⟩ := listed_all (smF := smF) (c := c) faces [] Out.empty listed_empty (fun f hf => ⟨(hpoly f hf).1, G.entry_iff ((hfaces f).1 hf)⟩)
  obtain ⟨T, hT, U⟩ := used_of G hnd hfaces (by simpa using L) (fun f hf => (hpoly f hf).2) two
  exact ⟨o, T, e, hT, U⟩

/-- **C73 (every new halfedge).** Every halfedge of "m0" that is not a cut halfedge is part of exactly one halfedge of "ps". -/
theorem C73_parts (G : Given d ps base pts sort edges c st pieces reg) (x : Nat) (hl : LiveH st.m0 x) (hn : c.m0.nE ≤ edgeOf x) :
    ∃ h, PartOf ps st.m0 pts sort pieces h x ∧ ∀ h', PartOf ps st.m0 pts sort pieces h' x → h' = h := by
  obtain ⟨h, hh⟩ := G.part_every hl hn
  exact ⟨h, hh, fun h' hh' => G.part_one hh' hh⟩

/-- **C73 (the two faces of a cut edge).** After the earlier stages, when two faces have at most one common edge, every cut edge lies in exactly one face of the source mesh
and in exactly one face of the cut mesh. -/
theorem C73_two_faces {sm cs : Mesh P} (M : MergeOf d sm cs ps) (hs : Preproc.ValidMesh sm.numVertices (polygons sm)) (hc : Preproc.ValidMesh cs.numVertices (polygons cs))
    (R : List (Nat × Nat × P)) (t : Tables P) (T : Recorded ps sm.numFaces ps.numVertices R t) (hx : CrossTested ps sm.numFaces t.reg) (hnd : t.reg.Nodup)
    (h2 : ∀ k, t.cut k ≠ [] → (t.cut k).length = 2) (keys : List (Nat × Nat)) (hkeys : ∀ k, k ∈ keys ↔ t.cut k ≠ []) (csort : List Nat → List Nat)
    (inside : Nat → Nat → Nat → Bool) (c : CutEdges.St P)
    (hst : cutEdges ps ps.numVertices t.reg csort inside t.cut keys (addPoints (copyVertices d ps).1 t.pts) = some c) (one : OneCommonEdge ps) :
    (∀ e ∈ c.cutEdges, ∃ f g, f < sm.numFaces ∧ sm.numFaces ≤ g ∧ ∀ x, e ∈ c.faceEdges x ↔ x = f ∨ x = g) ∧
    ∀ e f g, e ∈ c.faceEdges f → e ∈ c.faceEdges g → (f < sm.numFaces ↔ g < sm.numFaces) → f = g := by
  have K := known_of M hs hc T hx
  obtain ⟨c', e', CG⟩ := C66_edges M hs hc R t T hx h2 keys hkeys csort inside
  rw [hst] at e'
  obtain rfl : c = c' := Option.some.inj e'
  have live : ∀ {v e g : Nat}, t.reg[v]? = some (e, g) → LiveE ps e := by
    intro v e g hv
    obtain ⟨f, f1, f2, -⟩ := hx _ (List.mem_of_getElem? hv)
    have hlf : LiveF ps f := ⟨by rw [← M.intact.numF]; exact f1, by rw [M.intact.noRemoved.2]; simp⟩
    obtain ⟨h, hh, he⟩ := f2
    have := (((C29_consistent M.intact.reach).face_list f hlf).2.2 h hh).1
    have := ((reachable_wf M.intact.reach).liveH_iff h).1 this
    simp only at he
    rw [← he]; exact this
  -- the pair of faces of a cut edge
  have key : ∀ {v w : Nat} {k k' : Nat × Nat}, t.cut k = [v, w] → t.cut k' = [v, w] → k = k' := by
    intro v w k k' hk hk'
    have hlt := K.lt hk
    obtain ⟨e1, g1, b1, r1, s1, s2, c1⟩ := K.entry (k := k) (v := v) (by rw [hk]; simp)
    obtain ⟨e2, g2, b2, r2, -, -, c2⟩ := K.entry (k := k) (v := w) (by rw [hk]; simp)
    obtain ⟨e1', g1', -, r1', s1', s2', c1'⟩ := K.entry (k := k') (v := v) (by rw [hk']; simp)
    obtain ⟨e2', g2', -, r2', -, -, c2'⟩ := K.entry (k := k') (v := w) (by rw [hk']; simp)
    rw [r1] at r1'; rw [r2] at r2'
    simp only [Option.some.injEq, Prod.mk.injEq] at r1' r2'
    obtain ⟨rfl, rfl⟩ := r1'
    obtain ⟨rfl, rfl⟩ := r2'
    have S1 := K.sided _ (List.mem_of_getElem? r1)
    have S2 := K.sided _ (List.mem_of_getElem? r2)
    have same : g1 = g2 → e1 ≠ e2 := by
      rintro rfl rfl
      have := (List.getElem?_inj (List.getElem?_eq_some_iff.1 r1).1 hnd).1 (r1.trans r2.symm)
      omega
    rcases c1 with ⟨o1, h1⟩ | ⟨o1, h1⟩ <;> rcases c2 with ⟨o2, h2⟩ | ⟨o2, h2⟩ <;> rcases c1' with ⟨o1', h1'⟩ | ⟨o1', h1'⟩ <;> rcases c2' with ⟨o2', h2'⟩ | ⟨o2', h2'⟩
    any_goals (exfalso; omega)
    · by_contra hne
      have hkk : k.1 ≠ k'.1 := fun h => hne (Prod.ext h (h1.symm.trans h1'))
      exact same (h1.trans h2.symm) (one e1 e2 _ _ (live r1) (live r2) hkk o1 o1' o2 o2')
    · exact Prod.ext (h2.symm.trans h2') (h1.symm.trans h1')
    · exact Prod.ext (h1.symm.trans h1') (h2.symm.trans h2')
    · by_contra hne
      have hkk : k.2 ≠ k'.2 := fun h => hne (Prod.ext (h1.symm.trans h1') h)
      exact same (h1.trans h2.symm) (one e1 e2 _ _ (live r1) (live r2) hkk o1 o1' o2 o2')
  have hpair : ∀ {e : Nat} {k k' : Nat × Nat} {v w v' w' : Nat}, t.cut k = [v, w] → t.cut k' = [v', w'] → Joins c.m0 e v w → Joins c.m0 e v' w' → k = k' := by
    intro e k k' v w v' w' hk hk' hj hj'
    have l1 := K.lt hk
    have l2 := K.lt hk'
    have : v = v' ∧ w = w' := by
      rcases hj with ⟨a, b⟩ | ⟨a, b⟩ <;> rcases hj' with ⟨a', b'⟩ | ⟨a', b'⟩ <;> omega
    obtain ⟨rfl, rfl⟩ := this
    exact key hk hk'
  have hside : ∀ {k : Nat × Nat} {v w : Nat}, t.cut k = [v, w] → k.1 < sm.numFaces ∧ sm.numFaces ≤ k.2 := by
    intro k v w hk
    obtain ⟨-, -, -, -, s1, s2, -⟩ := K.entry (k := k) (v := v) (by rw [hk]; simp)
    exact ⟨s1, s2⟩
  constructor
  · intro e he
    obtain ⟨k, v, w, hk, hj⟩ := CG.only e he
    obtain ⟨s1, s2⟩ := hside hk
    refine ⟨k.1, k.2, s1, s2, fun x => ?_⟩
    rw [CG.faces]
    constructor
    · rintro ⟨-, k', v', w', hk', hx', hj'⟩
      rw [hpair hk hk' hj hj']; exact hx'
    · intro hx'
      exact ⟨he, k, v, w, hk, hx', hj⟩
  · intro e f g hf hg hfg
    obtain ⟨-, k, v, w, hk, hkf, hj⟩ := (CG.faces f e).1 hf
    obtain ⟨-, k', v', w', hk', hkg, hj'⟩ := (CG.faces g e).1 hg
    obtain rfl := hpair hk hk' hj hj'
    obtain ⟨s1, s2⟩ := hside hk
    rcases hkf with rfl | rfl <;> rcases hkg with rfl | rfl <;> first | rfl | (exfalso; omega)

/-! ### Demonstrations -/

open Mcut.Floating Mcut.Pairs

/-- The hypotheses are met: the tip of a pyramid passes through a triangle; for each halfedge of "m0" the polygons that use it. The halfedges of the three cut edges (0 to 5) are
used by one polygon on each mesh; the halfedges of the outer edges that have no face are not used. -/
theorem C73_demo : ∃ pieces, Given () demoPs2 7 demoTables2.edges demoSort (List.range 9) demoCut2 (demoDivided demoTables2 [] demoCut2) pieces demoTables2.reg ∧ SimpleEdges demoPs2 ∧
    [0, 1, 2, 3].Nodup ∧ (∀ f, f ∈ [0, 1, 2, 3] ↔ LiveF demoPs2 f) ∧
    (∀ f ∈ [0, 1, 2, 3], demoCut2.faceEdges f ≠ [] → ∀ h ∈ demoPs2.fh f, (demoTables2.edges (edgeOf h)).length ≤ 1) ∧
    (∀ f ∈ [0, 1, 2, 3], ∀ g ∈ [0, 1, 2, 3], ∀ e ∈ demoCut2.faceEdges f, e ∈ demoCut2.faceEdges g → (f < 1 ↔ g < 1) → f = g) ∧
    ((sequential demoPs2 (demoDivided demoTables2 [] demoCut2) 1 7 demoTables2.reg keeping [0, 1, 2, 3]).bind
      (fun o => users (demoDivided demoTables2 [] demoCut2).m0.numHalfedges o.polygons)).map (fun T => (List.range 30).map T) =
      some [[1, 3], [2, 4], [2, 5], [1, 6], [1, 7], [2, 8], [0], [], [0], [], [0], [], [3], [], [5], [4], [6], [3], [7], [3], [8], [4], [6], [], [8], [5], [7], [6], [7], []] := by
  obtain ⟨pieces, G, h1, h2, h3, -⟩ := C71_demo
  refine ⟨pieces, G, h1, by decide, ?_, h3, by decide +kernel, by decide +kernel⟩
  intro f
  refine ⟨h2 f, fun hf => ?_⟩
  have nF : demoPs2.nF = 4 := by decide +kernel
  have := hf.1
  rw [nF] at this
  simp; omega

/-- A polygon with an index that is not in the table: the access is outside of the vector. -/
theorem C73_range_fails (n i : Nat) (p : List Nat) (l : List (List Nat)) (T : Nat → List Nat) (h : ∃ x ∈ p, n ≤ x) : usersFrom n i (p :: l) T = none := by
  unfold usersFrom
  rw [noteAll_none h]; rfl

end Mcut.Trace
