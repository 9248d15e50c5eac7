import Verif.Lemmas.C79Cut
import Verif.Props.C78
import Verif.Props.C67

/-!
# C79: the patches of the cut mesh
-/
namespace Mcut.Patches
open Mcut.Hmesh Mcut.Extract Mcut.Registry Mcut.CutEdges Mcut.Boundary Mcut.Trace Mcut.Split Mcut.CutPaths
variable {P : Type} {d : P} {sort : Nat → Nat → List Nat → List Nat} {edges : List Nat} {c : CutEdges.St P} {st : Boundary.St P} {pieces : Nat → List Nat}

/-- What is known after the earlier stages. -/
theorem cut_facts {sm cs ps : Mesh P} (M : MergeOf d sm cs ps) (hvs : Preproc.ValidMesh sm.numVertices (polygons sm)) (hv : Preproc.ValidMesh cs.numVertices (polygons cs))
    (R : List (Nat × Nat × P)) (t : Registry.Tables P) (T : Recorded ps sm.numFaces ps.numVertices R t) (hx : CrossTested ps sm.numFaces t.reg) (hnd : t.reg.Nodup)
    (h2 : ∀ k, t.cut k ≠ [] → (t.cut k).length = 2) (keys : List (Nat × Nat)) (hkeys : ∀ k, k ∈ keys ↔ t.cut k ≠ []) (csort : List Nat → List Nat)
    (inside : Nat → Nat → Nat → Bool) (hst : cutEdges ps ps.numVertices t.reg csort inside t.cut keys (addPoints (copyVertices d ps).1 t.pts) = some c)
    (A : Arranges ps t.edges sort) (hl : AllEdges ps edges) (D : Divided d ps ps.numVertices t.edges sort edges c st pieces) (one : SimpleEdges ps) (common : OneCommonEdge ps)
    (clean : ∀ f, f < sm.numFaces + cs.numFaces → CleanFace ps t.edges sort c f)
    (part : (Nat → Bool) → List Nat → List Nat × List Nat) (hp : IsPartition part) :
    ∃ o U poly, sequential ps st sm.numFaces ps.numVertices t.reg part (List.range ps.numFaces) = some o ∧ users st.m0.numHalfedges o.polygons = some U ∧
      CutFacts d ps sm.numVertices sm.numFaces ps.numVertices t.edges sort edges c st pieces t.reg ps.numFaces o U poly := by
  have G := C71_given M hvs hv R t T hx hnd h2 keys hkeys csort inside c hst A hl D
  have X := crossing_of M hvs hv R t T hx h2 keys hkeys csort inside hst
  obtain ⟨each, two⟩ := C73_two_faces M hvs hv R t T hx hnd h2 keys hkeys csort inside c hst common
  have cutIn := C77_cut_in M hvs hv R t T hx hnd h2 keys hkeys csort inside hst common
  have K := known_of M hvs hv T hx
  obtain ⟨c', e', CG⟩ := C66_edges M hvs hv R t T hx h2 keys hkeys csort inside
  rw [hst] at e'
  obtain rfl : c = c' := Option.some.inj e'
  have hnF := M.numF
  have hn : sm.numFaces ≤ ps.numFaces := by omega
  have hlf : ∀ f, f < ps.numFaces ↔ LiveF ps f := by
    intro f
    unfold LiveF Live
    rw [M.intact.noRemoved.2, ← M.intact.numF]; simp
  have hcl : ∀ f, f < ps.numFaces → CleanFace ps t.edges sort c f := fun f hf => clean f (by omega)
  have all : ∀ e, e ∈ c.cutEdges ↔ e < c.m0.nE := by
    intro e
    rw [CG.numbers, List.mem_range, ← CG.mesh.live e]
    refine ⟨fun h => h.1, fun h => ⟨h, ?_⟩⟩
    rw [(C70_ready M hvs hv R t T hx h2 keys hkeys csort inside c hst).edges]; simp
  obtain ⟨o, U, poly, e, hU, F⟩ := facts_of (smV := sm.numVertices) (n := ps.numFaces) G one hp hn hlf (fun f hf hc => (hcl f hf hc).2) two X
    (fun f hf x hx => C77_anchored G ((hlf f).1 (by omega)) (hcl f (by omega)) hx) cutIn
  obtain ⟨-, nr⟩ := C74_simple_partial G one part hp sm.numFaces ps.numFaces hn (fun f hf => (hlf f).1 hf) o e
  have nr := nr (fun f _ hf => hcl f hf)
  obtain ⟨CV, PT⟩ := C67_curves M hvs hv R t T hx h2 hnd common _ c CG
  have W := reachable_wf M.intact.reach
  refine ⟨o, U, poly, e, hU, F, own_of M hvs, fun f _ hf x hx => C77_anchored G ((hlf f).1 hf) (hcl f hf) hx, ?_, ?_, PT, CV, all⟩
  · intro e he
    obtain ⟨f, g, -, hg, hh⟩ := each e ((all e).2 he)
    have hin := (hh g).2 (.inr rfl)
    refine ⟨g, hg, ?_, hin⟩
    obtain ⟨-, k, v, w, h3, h4, -⟩ := (CG.faces g e).1 hin
    obtain ⟨x, f', -, r1, s1, s2, h5⟩ := K.entry (k := k) (v := v) (by rw [h3]; simp)
    obtain rfl : g = k.2 := by omega
    rcases h5 with ⟨-, h5⟩ | ⟨h5, -⟩
    · obtain ⟨-, -, -, h6, -⟩ := hx _ (List.mem_of_getElem? r1)
      rw [← h5]; exact h6
    · have hle := K.live _ (List.mem_of_getElem? r1)
      rw [hlf]
      have go : ∀ i, i < 2 → ps.face (halfedgeOf x i) = some k.2 → LiveF ps k.2 := by
        intro i hi h5
        rcases W.h_face _ _ (live_half M.intact.reach hle i hi) h5 with h | h
        · cases h.2
        · exact h.2.1
      rcases h5 with h5 | h5
      · exact go 0 (by omega) h5
      · exact go 1 (by omega) h5
  · intro i p hi hp'
    refine nr p ?_
    rw [List.mem_iff_getElem?]
    exact ⟨i - o.smCount, by rw [List.getElem?_drop]; rw [Nat.add_sub_cancel' hi]; exact hp'⟩

/-- The stage, from what is known. -/
theorem patches_of {ps : Mesh P} {smV smF base n : Nat} {pts : Nat → List Nat} {reg : List (Nat × Nat)} {o : Out} {T : Nat → List Nat} {poly : Nat → List (List Nat)}
    (C : CutFacts d ps smV smF base pts sort edges c st pieces reg n o T poly) {seqs : List (List Nat)} (Q : Sequences (endsOf c.m0) c.cutEdges seqs) :
    ∃ pool s, seeds o.polygons o.smCount T seqs (List.range seqs.length) = some pool ∧ discover o.polygons T (2 * c.m0.nE) pool = some s ∧
      PatchesOf o.polygons o.smCount (2 * c.m0.nE) s.patches ∧ TableOf s.patches s.table ∧ StartsOf o.polygons (2 * c.m0.nE) s.patches s.starts := by
  obtain ⟨pool, hpool, a, b, e, hab⟩ := C.seeds Q (List.range seqs.length) (fun k hk => List.mem_range.1 hk)
  have good : ∀ x ∈ pool, ∃ h, edgeOf h < c.m0.nE ∧ InCut o.polygons o.smCount x.1 h ∧ ∃ p, o.polygons[x.1]? = some p ∧ p[x.2]? = some h := by
    intro x hx
    rw [e] at hx
    obtain ⟨k, hk, hx⟩ := List.mem_flatMap.1 hx
    obtain ⟨seq, e, -, -, h3, h4, h5⟩ := hab k hk
    have go : ∀ h, edgeOf h < c.m0.nE → seedOf o.polygons o.smCount T h = some x → ∃ h, edgeOf h < c.m0.nE ∧ InCut o.polygons o.smCount x.1 h ∧
        ∃ p, o.polygons[x.1]? = some p ∧ p[x.2]? = some h := by
      intro h hh hs
      obtain ⟨i, k, p, g1, g2, g3, g4⟩ := C.seed hh
      rw [hs] at g1
      obtain rfl := Option.some.inj g1
      exact ⟨h, hh, g2, p, g3, g4⟩
    rcases List.mem_cons.1 hx with hx | hx
    · rw [← hx] at h4
      exact go _ (by unfold edgeOf halfedgeOf; omega) h4
    · rw [List.mem_singleton] at hx
      rw [← hx] at h5
      exact go _ (by unfold edgeOf halfedgeOf; omega) h5
  obtain ⟨s, hs, S, hall⟩ := discover_spec C.net (pool := pool) (fun x hx => by
    obtain ⟨h, h1, h2, p, h3, h4⟩ := good x hx
    exact ⟨h2.1, p, h, h3, h4, cut_lt.2 h1⟩)
  refine ⟨pool, s, hpool, hs, ⟨S.whole, S.cut, S.disjoint, ?_⟩, S.table, S.starts⟩
  rintro i ⟨x, hi, hx⟩
  obtain ⟨seq, s1, -, e0, x0, h0, h1, h2⟩ := C.first Q (cut_lt.1 hx)
  obtain ⟨k, hk⟩ := List.mem_iff_getElem?.1 s1
  have hk' : k ∈ List.range seqs.length := List.mem_range.2 (List.getElem?_eq_some_iff.1 hk).1
  obtain ⟨seq', e', k1, k2, k3, k4, k5⟩ := hab k hk'
  rw [hk] at k1
  obtain rfl := Option.some.inj k1
  rw [h0] at k2
  obtain rfl := Option.some.inj k2
  obtain ⟨j, m, p, g1, g2, -⟩ := C.seed (x := x0) (by rw [h1]; exact k3)
  have hin : (j, m) ∈ pool := by
    rw [e]
    refine List.mem_flatMap.2 ⟨k, hk', ?_⟩
    have : x0 = halfedgeOf e0 0 ∨ x0 = halfedgeOf e0 1 := by unfold edgeOf at h1; unfold halfedgeOf; omega
    rcases this with h | h
    · rw [h, k4] at g1; rw [← Option.some.inj g1]; simp
    · rw [h, k5] at g1; rw [← Option.some.inj g1]; simp
  obtain ⟨l, l1, l2⟩ := hall _ hin
  exact ⟨l, l1, ((S.whole l l1).2.2 _ l2 i).2 (h2.1 j i g2 hi)⟩

/-- **C79.** After the earlier stages, for valid input meshes, when two faces have at most one common edge, no two edges have the same ends, every pair of intersecting faces has
exactly two points, no entry of the registry occurs twice, and all faces are cut cleanly: if every cut path makes a hole and some fragment or patch is wanted, then the patches
of the cut mesh are found without exception. They are the maximal sets of polygons of the cut mesh that hang together without crossing the cut and touch it; the table tells
the patch of every polygon; and each patch is begun at a halfedge of a cut edge. -/
theorem C79_patches_partial {sm cs ps : Mesh P} (M : MergeOf d sm cs ps) (hvs : Preproc.ValidMesh sm.numVertices (polygons sm)) (hv : Preproc.ValidMesh cs.numVertices (polygons cs))
    (R : List (Nat × Nat × P)) (t : Registry.Tables P) (T : Recorded ps sm.numFaces ps.numVertices R t) (hx : CrossTested ps sm.numFaces t.reg) (hnd : t.reg.Nodup)
    (h2 : ∀ k, t.cut k ≠ [] → (t.cut k).length = 2) (keys : List (Nat × Nat)) (hkeys : ∀ k, k ∈ keys ↔ t.cut k ≠ []) (csort : List Nat → List Nat)
    (inside : Nat → Nat → Nat → Bool) (hst : cutEdges ps ps.numVertices t.reg csort inside t.cut keys (addPoints (copyVertices d ps).1 t.pts) = some c)
    (A : Arranges ps t.edges sort) (hl : AllEdges ps edges) (D : Divided d ps ps.numVertices t.edges sort edges c st pieces) (one : SimpleEdges ps) (common : OneCommonEdge ps)
    (clean : ∀ f, f < sm.numFaces + cs.numFaces → CleanFace ps t.edges sort c f)
    (part : (Nat → Bool) → List Nat → List Nat × List Nat) (hp : IsPartition part) :
    ∃ o U, sequential ps st sm.numFaces ps.numVertices t.reg part (List.range ps.numFaces) = some o ∧ users st.m0.numHalfedges o.polygons = some U ∧
      ∀ (seqs : List (List Nat)) (kinds : List Kind) (w : Wishes), Sequences (endsOf c.m0) c.cutEdges seqs → kinds.length = seqs.length →
        proceeds (makingHoles kinds) seqs w = true →
        ∃ pool s, seeds o.polygons o.smCount U seqs (makingHoles kinds) = some pool ∧ discover o.polygons U (2 * c.m0.nE) pool = some s ∧
          PatchesOf o.polygons o.smCount (2 * c.m0.nE) s.patches ∧ TableOf s.patches s.table ∧ StartsOf o.polygons (2 * c.m0.nE) s.patches s.starts := by
  obtain ⟨o, U, poly, e, hU, C⟩ := cut_facts M hvs hv R t T hx hnd h2 keys hkeys csort inside hst A hl D one common clean part hp
  refine ⟨o, U, e, hU, fun seqs kinds w Q hlen hpr => ?_⟩
  unfold proceeds at hpr
  rw [Bool.and_eq_true, beq_iff_eq] at hpr
  rw [holes_all (by rw [hpr.1, hlen]), hlen]
  exact patches_of C Q

/-- **C79 (when it ends).** The dispatch ends before this stage exactly if some cut path does not make a hole (it ends at a border of the source mesh), or neither fragments on
either side, nor sealed fragments, nor patches are wanted. -/
theorem C79_ends (kinds : List Kind) (seqs : List (List Nat)) (w : Wishes) (hlen : kinds.length = seqs.length) :
    proceeds (makingHoles kinds) seqs w = false ↔
      (∃ k ∈ kinds, k.hole = false) ∨ (w.below = false ∧ w.above = false ∧ w.sealedIn = false ∧ w.sealedOut = false ∧ w.patchIn = false ∧ w.patchOut = false) := by
  have key : (makingHoles kinds).length = seqs.length ↔ ∀ k ∈ kinds, k.hole = true := by
    rw [← hlen]
    constructor
    · intro h k hk
      have := holes_all h
      obtain ⟨i, hi⟩ := List.mem_iff_getElem?.1 hk
      have hm : i ∈ makingHoles kinds := by rw [this]; exact List.mem_range.2 (List.getElem?_eq_some_iff.1 hi).1
      have := (List.mem_filter.1 hm).2
      rw [hi] at this
      simpa using this
    · intro h
      unfold makingHoles
      rw [List.filter_eq_self.2, List.length_range]
      intro i hi
      rw [List.getElem?_eq_getElem (List.mem_range.1 hi)]
      simpa using h _ (List.getElem_mem _)
  have no : (∃ k ∈ kinds, k.hole = false) ↔ ¬ (makingHoles kinds).length = seqs.length := by
    rw [key]
    constructor
    · rintro ⟨k, h1, h2⟩ h3
      rw [h3 k h1] at h2; cases h2
    · intro h
      by_contra hn
      exact h (fun k hk => by
        cases hh : k.hole
        · exact absurd ⟨k, hk, hh⟩ hn
        · rfl)
  rw [no]
  unfold proceeds
  rw [Bool.and_eq_false_iff, beq_eq_false_iff_ne]
  simp only [Bool.or_eq_false_iff, ne_eq, and_assoc]

/-! ## Example: two pyramids without bases, of `C74_demo` -/

open Mcut.Floating Mcut.Pairs

/-- Two pyramids without their bases, which cross each other: everything that `C79_patches_partial` asks for holds. The cut is one closed path; it divides the other pyramid into two patches:
the three polygons at the base, and the three at the apex (7, 8, 11). -/
theorem C79_demo : ∃ pool s, seeds pyrOut.polygons 6 pyrUsers [[0, 1, 2, 3, 5, 4]] (makingHoles [⟨false, true, true⟩]) = some pool ∧
    discover pyrOut.polygons pyrUsers (2 * demoCut5.m0.nE) pool = some s ∧ s.patches = [[6, 9, 10], [7, 8, 11]] ∧
    PatchesOf pyrOut.polygons 6 (2 * demoCut5.m0.nE) s.patches ∧ TableOf s.patches s.table ∧ StartsOf pyrOut.polygons (2 * demoCut5.m0.nE) s.patches s.starts := by
  obtain ⟨J, hw, hsz, hS, hrec, hx, hnd, h2, hkeys, hst, A, hl, ⟨pieces, D⟩, one, common, -, -, clean, -, -⟩ := C74_demo
  obtain ⟨S', hS', M, -⟩ := C60_soup 0 J J hw none hsz
  rw [hS] at hS'; injection hS' with hS'; subst hS'
  have nF : demoCone.numFaces = 3 := by decide +kernel
  have nV' : demoSoup5.ps.numVertices = 8 := by decide +kernel
  have nF' : demoSoup5.ps.numFaces = 6 := by decide +kernel
  obtain ⟨c', e', CG⟩ := C66_edges M hw hw _ demoTables5 hrec hx h2 demoKeys5 hkeys id (fun _ _ _ => true)
  rw [hst] at e'
  obtain ⟨r, r1, r2, -⟩ := C67_cut_paths M hw hw _ demoTables5 hrec hx h2 hnd common _ demoCut5 (by rw [Option.some.inj e']; exact CG) (by decide +kernel) [8, 9, 10, 11, 12, 13]
    (by decide +kernel) (by
      intro v
      have e : demoCut5.cutEdges.map (endsOf demoCut5.m0) = [(11, 8), (11, 9), (12, 9), (12, 10), (13, 8), (13, 10)] := by decide +kernel
      have : (∃ e ∈ demoCut5.cutEdges, (endsOf demoCut5.m0 e).1 = v ∨ (endsOf demoCut5.m0 e).2 = v) ↔ ∃ x ∈ demoCut5.cutEdges.map (endsOf demoCut5.m0), x.1 = v ∨ x.2 = v := by
        simp only [List.mem_map, exists_exists_and_eq_and]
      rw [this, e]
      simp only [List.mem_cons, List.not_mem_nil, or_false, exists_eq_or_imp, exists_eq_left]
      omega)
  have er : r.seqs = [[0, 1, 2, 3, 5, 4]] := by
    have : (paths (endsOf demoCut5.m0) [8, 9, 10, 11, 12, 13] demoCut5.cutEdges).map (fun r => r.seqs) = some [[0, 1, 2, 3, 5, 4]] := by decide +kernel
    rw [r1] at this
    exact Option.some.inj this
  rw [er] at r2
  obtain ⟨o, U, e1, e2, H⟩ := C79_patches_partial M hw hw _ demoTables5 hrec hx hnd h2 demoKeys5 hkeys id (fun _ _ _ => true) hst A hl D one common clean keeping keeping_ok
  rw [nF, nV', nF'] at e1
  have eo : pyrOut = o := by unfold pyrOut; rw [e1]; rfl
  subst eo
  have eU : pyrUsers = U := by unfold pyrUsers; rw [e2]; rfl
  subst eU
  have cnt : pyrOut.smCount = 6 := by decide +kernel
  rw [cnt] at H
  obtain ⟨pool, s, h3, h4, h5⟩ := H [[0, 1, 2, 3, 5, 4]] [⟨false, true, true⟩] ⟨true, true, true, true, true, true⟩ r2 rfl (by decide)
  refine ⟨pool, s, h3, h4, ?_, h5⟩
  have : (seeds pyrOut.polygons 6 pyrUsers [[0, 1, 2, 3, 5, 4]] (makingHoles [⟨false, true, true⟩])).bind (fun p =>
      (discover pyrOut.polygons pyrUsers (2 * demoCut5.m0.nE) p).map (fun s => s.patches)) = some [[6, 9, 10], [7, 8, 11]] := by decide +kernel
  rw [h3, Option.bind_some, h4] at this
  exact Option.some.inj this

end Mcut.Patches
