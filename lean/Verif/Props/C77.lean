import Verif.Spec.C77
import Verif.Lemmas.C77Keys
import Verif.Lemmas.C77Start
import Verif.Props.C76
import Verif.Props.C74

/-!
# C77: the source mesh comes apart along the cut, and nowhere else
-/
namespace Mcut.Split
open Mcut.Hmesh Mcut.Extract Mcut.Registry Mcut.CutEdges Mcut.Boundary Mcut.Trace
variable {P : Type} {d : P} {ps : Mesh P} {base : Nat} {pts : Nat → List Nat} {sort : Nat → Nat → List Nat → List Nat} {edges : List Nat} {c : CutEdges.St P} {st : Boundary.St P}
  {pieces : Nat → List Nat} {reg : List (Nat × Nat)} {smV smF n : Nat} {o : Out} {T : Nat → List Nat} {poly : Nat → List (List Nat)}

theorem next_iff (F : Facts d ps smV smF base pts sort edges c st pieces reg n o T poly) {h h' : Nat} (hU : OfSource o h') :
    Mate (envOf ps smV smF base (2 * c.m0.nE) reg st.m0 st.incoming T o) h h' ↔ Next (o.polygons.take o.smCount) (2 * c.m0.nE) h h' := by
  refine and_congr Iff.rfl ⟨fun e => ?_, ?_⟩
  · obtain ⟨p, hp, hh⟩ := hU
    obtain ⟨y, f1, f2⟩ := follows_next (F.round hp).cyclic hh
    have := (F.links hp f1).1
    rw [show (link st.m0 (o.polygons.take o.smCount)).next h' = some (opposite h) from e] at this
    obtain rfl := Option.some.inj this
    exact ⟨p, hp, f1⟩
  · rintro ⟨q, hq, hf⟩
    exact (F.links hq hf).1

theorem countP_one {p : List Nat} {q : Nat → Bool} (nd : p.Nodup) (hx : ∃ h ∈ p, q h = true ∧ ∀ g ∈ p, q g = true → g = h) : p.countP q = 1 := by
  obtain ⟨h, h1, h2, h3⟩ := hx
  rw [List.countP_eq_length_filter]
  have : p.filter q = [h] := by
    have hnd : (p.filter q).Nodup := nd.filter _
    have hall : ∀ g ∈ p.filter q, g = h := fun g hg => h3 g (List.mem_filter.1 hg).1 (List.mem_filter.1 hg).2
    have hm : h ∈ p.filter q := List.mem_filter.2 ⟨h1, h2⟩
    match hz : p.filter q with
    | [] => rw [hz] at hm; cases hm
    | [a] => rw [hz] at hall; rw [hall a (by simp)]
    | a :: b :: l =>
      rw [hz] at hall hnd
      have e1 := hall a (by simp)
      have e2 := hall b (by simp)
      subst e1
      rw [e2] at hnd
      simp at hnd
  rw [this]; rfl

theorem split_of' (F : Facts d ps smV smF base pts sort edges c st pieces reg n o T poly) (some' : 0 < c.m0.nE)
    (hS : ∀ p ∈ o.polygons.take o.smCount, HasStart st.m0 base p) {order points : List Nat} (hpts : ∀ v, base ≤ v → v < st.m0.nV → v ∈ points)
    (ho : order.Perm (keysOf st.m0 smV base T st.incoming points)) :
    ∃ m1 polys1 ver orig he, split d (envOf ps smV smF base (2 * c.m0.nE) reg st.m0 st.incoming T o) st.m0 order = some (m1, polys1) ∧
      SplitOf d st.m0 base (2 * c.m0.nE) (o.polygons.take o.smCount) m1 polys1 ver orig ∧
      HalfTables d (envOf ps smV smF base (2 * c.m0.nE) reg st.m0 st.incoming T o) (OfSource o) st.m0 order m1 ver he := by
  obtain ⟨S, -⟩ := link_spec st.m0 (o.polygons.take o.smCount)
  have hr := F.G.divided.valid
  have p0 : Plain d st.m0 := ⟨hr, F.G.divided.same.2.1, F.G.divided.numbers.2.2, F.G.divided.same.2.2.2, List.eq_nil_iff_forall_not_mem.2 (fun f hf => by have := (reachable_wf hr).fRem_lt f hf; rw [F.G.divided.same.2.2.2] at this; omega)⟩
  have hstart : ∀ i p, i < (envOf ps smV smF base (2 * c.m0.nE) reg st.m0 st.incoming T o).smCount →
      (envOf ps smV smF base (2 * c.m0.nE) reg st.m0 st.incoming T o).polygons[i]? = some p → Startable (envOf ps smV smF base (2 * c.m0.nE) reg st.m0 st.incoming T o) p := by
    intro i p hi hp
    have hm := take_mem F hp hi
    rcases hS p hm with ⟨h, h1, h2, h3⟩ | h1
    · refine .inl ⟨h, h1, ?_⟩
      show ¬ (base ≤ src (link st.m0 (o.polygons.take o.smCount)) h ∨ base ≤ (link st.m0 (o.polygons.take o.smCount)).target h)
      rw [S.src, S.target]; omega
    · right
      refine countP_one (F.used.simple p (List.mem_of_mem_take hm)) ?_
      show ∃ h ∈ p, decide ((link st.m0 (o.polygons.take o.smCount)).target h < base) = true ∧ ∀ g ∈ p, decide ((link st.m0 (o.polygons.take o.smCount)).target g < base) = true → g = h
      simp only [S.target, decide_eq_true_eq]
      exact h1
  have hcut : edgeOf 0 < c.m0.nE := some'
  obtain ⟨m1, ver, proj, he, hs, V, HT⟩ := split_run' F.scene (F.keys hpts ho) F.polys hstart p0 S (fun h hU => by rw [← p0.liveH]; exact F.liveH hU)
    ⟨0, F.cut_source hcut, by
      show base ≤ src (link st.m0 (o.polygons.take o.smCount)) 0 ∨ _
      rw [S.src]; exact .inl (F.cut_ends hcut).1⟩
  refine ⟨m1, _, ver, proj, he, hs, ⟨⟨V.plain.reach, V.plain.nF, V.plain.vRem, V.plain.eRem, V.plain.fRem⟩, rfl, ⟨V.nV, V.proj0⟩, V.point, V.pos,
    fun h hU => (V.plain.liveH _).2 (V.live h hU), V.ends, ?_, V.opp, V.one, ?_, ?_⟩, HT⟩
  · intro p hp h n hf
    exact V.closed h n ⟨p, hp, hf.mem.1⟩ (F.links hp hf).1
  · intro h h' hU hU' hb
    constructor
    · intro e
      rcases V.sep h h' hU hU' hb e with h1 | h1 | h1
      · exact .inl h1
      · exact .inr (.inl ((next_iff F hU').1 h1))
      · exact .inr (.inr ((next_iff F hU).1 h1))
    · have key : ∀ a b, OfSource o a → OfSource o b → Next (o.polygons.take o.smCount) (2 * c.m0.nE) a b → m1.target (ver a) = m1.target (ver b) := by
        rintro a b ha hb ⟨h1, q, hq, hf⟩
        have hop : OfSource o (opposite a) := ⟨q, hq, hf.mem.2⟩
        rw [V.closed b (opposite a) hb (F.links hq hf).1, V.opp a ha hop h1, (V.plain.ends (V.live a ha)).2.2.1]
      rintro (h1 | h1 | h1)
      · rw [h1]
      · exact key h h' hU hU' h1
      · exact (key h' h hU' hU h1).symm
  · intro k hk
    rcases V.edges k ((V.plain.liveH k).1 hk) with h1 | ⟨h, h1, h2⟩
    · exact .inl h1
    · exact .inr ⟨h, (p0.liveH h).2 h1, h2⟩

theorem split_of (F : Facts d ps smV smF base pts sort edges c st pieces reg n o T poly) (some' : 0 < c.m0.nE)
    (hS : ∀ p ∈ o.polygons.take o.smCount, HasStart st.m0 base p) {order points : List Nat} (hpts : ∀ v, base ≤ v → v < st.m0.nV → v ∈ points)
    (ho : order.Perm (keysOf st.m0 smV base T st.incoming points)) :
    ∃ m1 polys1 ver orig, split d (envOf ps smV smF base (2 * c.m0.nE) reg st.m0 st.incoming T o) st.m0 order = some (m1, polys1) ∧
      SplitOf d st.m0 base (2 * c.m0.nE) (o.polygons.take o.smCount) m1 polys1 ver orig := by
  obtain ⟨m1, polys1, ver, orig, -, h1, h2, -⟩ := split_of' F some' hS hpts ho
  exact ⟨m1, polys1, ver, orig, h1, h2⟩

/-- **C77 (the source mesh comes apart along the cut).** If no edge of an intersecting face has more than one intersection point, the cut edges of each face of the source mesh
lead to its boundary, and every polygon of the source mesh has an edge without intersection points or exactly one original corner, then nothing fails, in whatever order the
tables are enumerated, and the result is the source mesh cut apart: its polygons are the same, those on different sides of the cut have no common edge and no common
intersection point, and everything else stays together. -/
theorem C77_split_partial (G : Given d ps base pts sort edges c st pieces reg) (one : SimpleEdges ps) (part : (Nat → Bool) → List Nat → List Nat × List Nat) (hp : IsPartition part)
    (le : smF ≤ n) (live : ∀ f, f < n ↔ LiveF ps f) (few : ∀ f, f < n → c.faceEdges f ≠ [] → ∀ h ∈ ps.fh f, (pts (edgeOf h)).length ≤ 1)
    (two : ∀ e f g, e ∈ c.faceEdges f → e ∈ c.faceEdges g → (f < smF ↔ g < smF) → f = g) (X : Crossing ps smV smF base pts c reg)
    (anch : ∀ f, f < smF → ∀ x, edgeOf x ∈ c.faceEdges f → Anchored ps pts c st.m0 f x) (cutIn : ∀ e, e < c.m0.nE → ∃ f, f < smF ∧ e ∈ c.faceEdges f) (some' : 0 < c.m0.nE) :
    ∃ o T, sequential ps st smF base reg part (List.range n) = some o ∧ users st.m0.numHalfedges o.polygons = some T ∧
      ((∀ p ∈ o.polygons.take o.smCount, HasStart st.m0 base p) → ∀ points order : List Nat, (∀ v, base ≤ v → v < st.m0.nV → v ∈ points) →
        order.Perm (keysOf st.m0 smV base T st.incoming points) →
        ∃ m1 polys1 ver orig, split d (envOf ps smV smF base (2 * c.m0.nE) reg st.m0 st.incoming T o) st.m0 order = some (m1, polys1) ∧
          SplitOf d st.m0 base (2 * c.m0.nE) (o.polygons.take o.smCount) m1 polys1 ver orig) := by
  obtain ⟨o, T, poly, e, hT, F⟩ := facts_of (smV := smV) G one hp le live few two X anch cutIn
  exact ⟨o, T, e, hT, fun hS points order hpts ho => split_of F some' hS hpts ho⟩

/-- **C77 (triangles with an uncut edge).** A walk can begin in every polygon, if the intersecting faces of the source mesh are triangles and have an edge without intersection
points. -/
theorem C77_faces_partial (G : Given d ps base pts sort edges c st pieces reg) (one : SimpleEdges ps) (part : (Nat → Bool) → List Nat → List Nat × List Nat) (hp : IsPartition part)
    (le : smF ≤ n) (live : ∀ f, f < n ↔ LiveF ps f) (few : ∀ f, f < n → c.faceEdges f ≠ [] → ∀ h ∈ ps.fh f, (pts (edgeOf h)).length ≤ 1)
    (two : ∀ e f g, e ∈ c.faceEdges f → e ∈ c.faceEdges g → (f < smF ↔ g < smF) → f = g) (X : Crossing ps smV smF base pts c reg)
    (anch : ∀ f, f < smF → ∀ x, edgeOf x ∈ c.faceEdges f → Anchored ps pts c st.m0 f x) (cutIn : ∀ e, e < c.m0.nE → ∃ f, f < smF ∧ e ∈ c.faceEdges f) (some' : 0 < c.m0.nE)
    (tri : ∀ f, f < smF → c.faceEdges f ≠ [] → (ps.fh f).length = 3 ∧ ∃ h ∈ ps.fh f, pts (edgeOf h) = []) :
    ∃ o T, sequential ps st smF base reg part (List.range n) = some o ∧ users st.m0.numHalfedges o.polygons = some T ∧
      ∀ points order : List Nat, (∀ v, base ≤ v → v < st.m0.nV → v ∈ points) → order.Perm (keysOf st.m0 smV base T st.incoming points) →
        ∃ m1 polys1 ver orig, split d (envOf ps smV smF base (2 * c.m0.nE) reg st.m0 st.incoming T o) st.m0 order = some (m1, polys1) ∧
          SplitOf d st.m0 base (2 * c.m0.nE) (o.polygons.take o.smCount) m1 polys1 ver orig := by
  obtain ⟨o, T, poly, e, hT, F⟩ := facts_of (smV := smV) G one hp le live few two X anch cutIn
  exact ⟨o, T, e, hT, fun points order hpts ho => split_of F some' (fun p hp => F.hasStart tri hp) hpts ho⟩

/-- **C77 (where it starts).** After the earlier stages (C60, C63, C66), for valid input meshes, every cut edge lies in a face of the source mesh. -/
theorem C77_cut_in {sm cs : Mesh P} (M : MergeOf d sm cs ps) (hs : Preproc.ValidMesh sm.numVertices (polygons sm)) (hc : Preproc.ValidMesh cs.numVertices (polygons cs))
    (R : List (Nat × Nat × P)) (t : Tables P) (T : Recorded ps sm.numFaces ps.numVertices R t) (hx : CrossTested ps sm.numFaces t.reg) (hnd : t.reg.Nodup)
    (h2 : ∀ k, t.cut k ≠ [] → (t.cut k).length = 2) (keys : List (Nat × Nat)) (hkeys : ∀ k, k ∈ keys ↔ t.cut k ≠ []) (csort : List Nat → List Nat)
    (inside : Nat → Nat → Nat → Bool) (hst : cutEdges ps ps.numVertices t.reg csort inside t.cut keys (addPoints (copyVertices d ps).1 t.pts) = some c) (common : OneCommonEdge ps) :
    ∀ e, e < c.m0.nE → ∃ f, f < sm.numFaces ∧ e ∈ c.faceEdges f := by
  intro e he
  have h1 := (C73_two_faces M hs hc R t T hx hnd h2 keys hkeys csort inside c hst common).1
  obtain ⟨c', e', CG⟩ := C66_edges M hs hc R t T hx h2 keys hkeys csort inside
  rw [hst] at e'
  obtain rfl : c = c' := Option.some.inj e'
  obtain ⟨f, g, hf, -, hx'⟩ := h1 e (by
    rw [CG.numbers, List.mem_range]
    refine (CG.mesh.live e).1 ⟨he, ?_⟩
    rw [(C70_ready M hs hc R t T hx h2 keys hkeys csort inside c hst).edges]; simp)
  exact ⟨f, hf, (hx' f).2 (.inl rfl)⟩

section triangles
open Mcut.Whole
variable {K : Type} [Field K] [LinearOrder K] [IsStrictOrderedRing K] {d : Box.V3 K} {sm cs ps : Mesh (Box.V3 K)} {c : CutEdges.St (Box.V3 K)} {st : Boundary.St (Box.V3 K)}

/-- **C77 (triangles).** For triangle meshes in general position (the setting of C69), in exact arithmetic: if no edge of an intersecting face has more than one intersection
point, intersecting triangles of the source mesh have an edge without one, and their cut edges lead to their boundary, then the source mesh comes apart along the cut. -/
theorem C77_triangles_partial (M : MergeOf d sm cs ps) (hs : Preproc.ValidMesh sm.numVertices (polygons sm)) (hc : Preproc.ValidMesh cs.numVertices (polygons cs)) {l : Nat → K}
    (G : Triangles ps sm.numFaces l) {test : Nat → Nat → Outcome (Box.V3 K)} (hT : TestOf ps l test) {bot top : K} {bS bC : Nat → Box.BBox K}
    (B : Boxed bot top bS bC sm.numFaces ps) {cand : List (Nat × List Nat)} (hcand : Whole.CandidatesOf bot top bS bC sm.numFaces ps cand) (hno : ¬ Violated test cand)
    {t : Tables (Box.V3 K)} (T : Recorded ps sm.numFaces ps.numVertices (hits test cand) t)
    (keys : List (Nat × Nat)) (hkeys : ∀ k, k ∈ keys ↔ t.cut k ≠ []) (csort : List Nat → List Nat) (inside : Nat → Nat → Nat → Bool)
    (hst : cutEdges ps ps.numVertices t.reg csort inside t.cut keys (addPoints (copyVertices d ps).1 t.pts) = some c)
    (A : Arranges ps t.edges sort) (hl : AllEdges ps edges) (D : Divided d ps ps.numVertices t.edges sort edges c st pieces) (common : OneCommonEdge ps) (one : SimpleEdges ps)
    (part : (Nat → Bool) → List Nat → List Nat × List Nat) (hp : IsPartition part)
    (few : ∀ f, f < ps.numFaces → c.faceEdges f ≠ [] → ∀ h ∈ ps.fh f, (t.edges (edgeOf h)).length ≤ 1)
    (anch : ∀ f, f < sm.numFaces → ∀ x, edgeOf x ∈ c.faceEdges f → Anchored ps t.edges c st.m0 f x) (some' : 0 < c.m0.nE)
    (uncut : ∀ f, f < sm.numFaces → c.faceEdges f ≠ [] → ∃ h ∈ ps.fh f, t.edges (edgeOf h) = []) :
    ∃ o U, sequential ps st sm.numFaces ps.numVertices t.reg part (List.range ps.numFaces) = some o ∧ users st.m0.numHalfedges o.polygons = some U ∧
      ∀ points order : List Nat, (∀ v, ps.numVertices ≤ v → v < st.m0.nV → v ∈ points) → order.Perm (keysOf st.m0 sm.numVertices ps.numVertices U st.incoming points) →
        ∃ m1 polys1 ver orig, split d (envOf ps sm.numVertices sm.numFaces ps.numVertices (2 * c.m0.nE) t.reg st.m0 st.incoming U o) st.m0 order = some (m1, polys1) ∧
          SplitOf d st.m0 ps.numVertices (2 * c.m0.nE) (o.polygons.take o.smCount) m1 polys1 ver orig := by
  obtain ⟨hnd, hx, h2, -⟩ := C69_pairs M hs hc G hT B hcand hno T
  have h2' : ∀ k, t.cut k ≠ [] → (t.cut k).length = 2 := fun k hk => (h2 k hk).1
  have Gv := C71_given M hs hc _ t T hx hnd h2' keys hkeys csort inside c hst A hl D
  have X := crossing_of M hs hc _ t T hx h2' keys hkeys csort inside hst
  have two := (C73_two_faces M hs hc _ t T hx hnd h2' keys hkeys csort inside c hst common).2
  have cutIn := C77_cut_in M hs hc _ t T hx hnd h2' keys hkeys csort inside hst common
  have hle : sm.numFaces ≤ ps.numFaces := by rw [M.numF]; omega
  refine C77_faces_partial Gv one part hp hle (fun f => ?_) few two X anch cutIn some' (fun f hf hcut => ⟨?_, uncut f hf hcut⟩)
  · unfold LiveF Live
    rw [M.intact.noRemoved.2, ← M.intact.numF]; simp
  · obtain ⟨p, q, r, hcor, -⟩ := G.testable f (by omega)
    have := congrArg List.length hcor
    unfold Whole.corners Mesh.verticesAroundFace at this
    simpa using this

end triangles

/-- Where the cut divides a face cleanly (C74), its cut edges lead to its boundary. -/
theorem C77_anchored (G : Given d ps base pts sort edges c st pieces reg) {f x : Nat} (hf : LiveF ps f) (C : CleanFace ps pts sort c f) (hx : edgeOf x ∈ c.faceEdges f) :
    Anchored ps pts c st.m0 f x := by
  obtain ⟨h1, -⟩ := C (List.ne_nil_of_mem hx)
  obtain ⟨w, hw, r⟩ := h1.anchored _ hx _ (joins_endsIn (G.joins hx)).2
  have hb : base ≤ w := by
    have h0 : base ≤ st.m0.target x := G.cutEnds f _ hx _ (joins_endsIn (G.joins hx)).2
    rcases Relation.ReflTransGen.cases_tail r with e | ⟨b, -, y, hy, hj⟩
    · rw [e]; exact h0
    · exact G.cutEnds f _ hy _ (joins_endsIn hj).2
  obtain ⟨h, hh, hwh⟩ := List.mem_flatMap.1 hw
  obtain ⟨q, q1, q2⟩ := G.path (G.live hf hh).1
  rw [q2, ← List.cons_append, List.dropLast_concat] at hwh
  refine ⟨w, edgeOf h, r, (G.live hf hh).2.1, G.onEdge hf hh, ?_⟩
  rcases List.mem_cons.1 hwh with e | e
  · have := (G.old hf hh).1; omega
  · exact q1.subset e

open Mcut.Floating Mcut.Pairs

/-- The polygons of the two pyramids of `C74_demo`. -/
def pyrOut : Out := (sequential demoSoup5.ps demoDivided5 3 8 demoTables5.reg keeping (List.range 6)).getD Out.empty

/-- The users of the halfedges. -/
def pyrUsers : Nat → List Nat := (users demoDivided5.m0.numHalfedges pyrOut.polygons).getD (fun _ => [])

/-- The hypotheses are met by the two pyramids of `C74_demo`, the tips of which pass through each other. Each of the three sides of the first one is divided into two polygons;
the six intersection points (8 to 13) get six copies (14 to 19), and the tip is cut off: its polygons only have the copies as corners, besides the tip itself (vertex 0). -/
theorem C77_demo : (∃ pieces, Given () demoSoup5.ps 8 demoTables5.edges demoSort (List.range 12) demoCut5 demoDivided5 pieces demoTables5.reg) ∧ SimpleEdges demoSoup5.ps ∧
    (∀ f, f < 6 ↔ LiveF demoSoup5.ps f) ∧ (∀ f, f < 6 → demoCut5.faceEdges f ≠ [] → ∀ h ∈ demoSoup5.ps.fh f, (demoTables5.edges (edgeOf h)).length ≤ 1) ∧
    (∀ e f g, e ∈ demoCut5.faceEdges f → e ∈ demoCut5.faceEdges g → (f < 3 ↔ g < 3) → f = g) ∧ Crossing demoSoup5.ps 4 3 8 demoTables5.edges demoCut5 demoTables5.reg ∧
    (∀ f, f < 3 → ∀ x, edgeOf x ∈ demoCut5.faceEdges f → Anchored demoSoup5.ps demoTables5.edges demoCut5 demoDivided5.m0 f x) ∧
    (∀ e, e < demoCut5.m0.nE → ∃ f, f < 3 ∧ e ∈ demoCut5.faceEdges f) ∧ 0 < demoCut5.m0.nE ∧
    (∀ f, f < 3 → demoCut5.faceEdges f ≠ [] → (demoSoup5.ps.fh f).length = 3 ∧ ∃ h ∈ demoSoup5.ps.fh f, demoTables5.edges (edgeOf h) = []) ∧
    ((split () (envOf demoSoup5.ps 4 3 8 (2 * demoCut5.m0.nE) demoTables5.reg demoDivided5.m0 demoDivided5.incoming pyrUsers pyrOut) demoDivided5.m0
      (keysOf demoDivided5.m0 4 8 pyrUsers demoDivided5.incoming [8, 9, 10, 11, 12, 13])).map (fun r => (r.2.map (fun p => p.map r.1.target), r.1.nV))) =
      some ([[14, 15, 16, 0], [1, 2, 9, 11, 8], [16, 17, 18, 0], [2, 3, 10, 12, 9], [8, 13, 10, 3, 1], [0, 18, 19, 14]], 20) := by
  obtain ⟨J, hw, hsz, hS, hrec, hx, hnd, h2, hkeys, hst, A, hl, ⟨pieces, D⟩, one, common, -, -, clean, -, -⟩ := C74_demo
  obtain ⟨S, hS', M, -⟩ := C60_soup 0 J J hw none hsz
  have hps : demoSoup5 = S := by rw [hS] at hS'; exact Option.some.inj hS'
  rw [← hps] at M
  have nV : demoCone.numVertices = 4 := by decide +kernel
  have nF : demoCone.numFaces = 3 := by decide +kernel
  have nV' : demoSoup5.ps.numVertices = 8 := by decide +kernel
  have nF' : demoSoup5.ps.numFaces = 6 := by decide +kernel
  have G := C71_given M hw hw _ demoTables5 hrec hx hnd h2 demoKeys5 hkeys id (fun _ _ _ => true) demoCut5 hst A hl D
  have X := crossing_of M hw hw _ demoTables5 hrec hx h2 demoKeys5 hkeys id (fun _ _ _ => true) hst
  have two := (C73_two_faces M hw hw _ demoTables5 hrec hx hnd h2 demoKeys5 hkeys id (fun _ _ _ => true) demoCut5 hst common).2
  have cutIn := C77_cut_in M hw hw _ demoTables5 hrec hx hnd h2 demoKeys5 hkeys id (fun _ _ _ => true) hst common
  have live : ∀ f, f < 6 ↔ LiveF demoSoup5.ps f := by
    intro f
    unfold LiveF Live
    rw [M.intact.noRemoved.2, ← M.intact.numF, nF']; simp
  rw [nF] at two cutIn clean
  rw [nV'] at G
  rw [nV', nF, nV] at X
  refine ⟨⟨pieces, G⟩, one, live, fun f hf hc => (clean f hf hc).2, two, X, fun f hf x hx => C77_anchored G ((live f).1 (by omega)) (clean f (by omega)) hx, cutIn,
    by decide +kernel, ?_, by decide +kernel⟩
  have : ∀ f ∈ List.range 3, (demoSoup5.ps.fh f).length = 3 ∧ ∃ h ∈ demoSoup5.ps.fh f, demoTables5.edges (edgeOf h) = [] := by decide +kernel
  exact fun f hf _ => this f (List.mem_range.2 hf)

/-- An exception is thrown (from `at()`, source/kernel.cpp:7636) although nothing is wrong with the input: the quadrangle of `C76_demo`, with opposite corners cut off by two triangles. The part in the
middle has two original corners and no edge between original vertices, so no walk ever begins in it (source/kernel.cpp:7150-7190), and its halfedges have no versions. -/
theorem C77_middle_fails : (∃ pieces, Given () quadPs 10 quadTables.edges demoSort (List.range 10) quadCut quadSt pieces quadTables.reg ∧ Crossing quadPs 4 1 10 quadTables.edges quadCut quadTables.reg) ∧
    (quadOut.polygons.take quadOut.smCount).map (fun p => p.map quadSt.m0.target) = [[10, 13, 0], [1, 11, 12, 3, 13, 10], [2, 12, 11]] ∧
    ∃ T, users quadSt.m0.numHalfedges quadOut.polygons = some T ∧
      split () (envOf quadPs 4 1 10 (2 * quadCut.m0.nE) quadTables.reg quadSt.m0 quadSt.incoming T quadOut) quadSt.m0 (keysOf quadSt.m0 4 10 T quadSt.incoming [10, 11, 12, 13]) = none := by
  obtain ⟨pieces, G, X, -⟩ := quad_given
  refine ⟨⟨pieces, G, X⟩, by decide +kernel, (users quadSt.m0.numHalfedges quadOut.polygons).getD (fun _ => []), some_getD (by decide +kernel), by decide +kernel⟩

end Mcut.Split
