import Verif.Lemmas.C78Flat
import Verif.Lemmas.C78Out
import Verif.Props.C77
import Verif.Props.C72

/-!
# C78: the unsealed fragments are what the cut leaves of the source mesh
-/
namespace Mcut.Split
open Mcut.Hmesh Mcut.Extract Mcut.Registry Mcut.CutEdges Mcut.Boundary Mcut.Trace
variable {P : Type} {d : P} {pts : Nat → List Nat} {sort : Nat → Nat → List Nat → List Nat} {edges : List Nat} {c : CutEdges.St P} {st : Boundary.St P}
  {pieces : Nat → List Nat}

/-- **C78 (no loose edges).** In a mesh that is made by adding vertices and faces only, every edge belongs to a face, and two vertices are joined by at most one edge. -/
theorem C78_no_loose {m : Mesh P} (h : FromFaces d m) : NoLooseEdges m ∧ SimpleEdges m := ⟨h.noLoose, C72_simple h.careful⟩

/-- **C78 (loader).** The meshes that the loader makes of the client's arrays are of this kind. -/
theorem C78_loaded (a : Preproc.Arrays) (pts : List P) (env : Preproc.LoadEnv) (w : a.WellSized) (hp : pts.length = a.numVertices) (L : Preproc.LoadOk a env) (m : Mesh P)
    (hm : Preproc.loadArrays d a pts env = .mesh m) : FromFaces d m := by
  have hv : Preproc.ValidMesh a.numVertices a.faces := by
    rcases Preproc.C33_accepts_iff d a pts env w hp L with ⟨_, h⟩ | ⟨h, _⟩
    · exact h
    · rw [h] at hm; cases hm
  have C := (Preproc.load_cases (d := d) w hp L).1 (fun f hf => hv.1 _ (List.mem_of_getElem? (w.face f hf).1))
  rw [hm] at C
  by_cases hr : (Preproc.addFaces (Preproc.addVertices (Mesh.empty d) pts) a.faces).2 = true
  · rw [if_pos hr] at C
    injection C with C
    rw [C]
    have B := Preproc.built_vertices d pts
    refine FromFaces.addFaces _ _ (addVertices_from pts _ .empty) (fun f hf => ?_) hr
    obtain ⟨h1, h2, h3⟩ := hv.1 f hf
    exact ⟨h1, h2, fun v hv' => (B.liveV v).2 (by rw [hp]; exact h3 v hv')⟩
  · rw [if_neg hr] at C; cases C

/-- **C78 (merged mesh).** So is the mesh into which source mesh and cut mesh are merged. -/
theorem C78_soup {sm cs : Mesh P} (junk : Nat) (C : FromFaces d sm) (I : Intact d sm) (J : Intact d cs) (hv : Preproc.ValidMesh cs.numVertices (polygons cs)) (threads : Option Nat)
    (hs : Sizes sm cs threads) (S : Soup P) (e : soup junk sm cs threads = some S) : FromFaces d S.ps := by
  rw [J.numV] at hv
  unfold soup at e
  rw [parOrder_ok sm.numVertices threads (fun t h => ⟨(hs t h).1, (hs t h).2.1⟩), parOrder_ok sm.numFaces threads (fun t h => ⟨(hs t h).1, (hs t h).2.2.1⟩),
    parOrder_ok cs.numFaces threads (fun t h => ⟨(hs t h).1, (hs t h).2.2.2⟩)] at e
  simp only [Option.bind_some, Option.map_eq_some_iff] at e
  obtain ⟨r, e, rfl⟩ := e
  obtain ⟨B, -, -⟩ := mergeVertices_spec I J (List.replicate (sm.numVertices + cs.numVertices) junk) (by simp [I.numV, J.numV])
  have V : FromFaces d (mergeVertices cs (sm, List.replicate (sm.numVertices + cs.numVertices) junk)).1 := mergeVertices_from cs _ _ C
  refine mergeFaces_from cs sm.numVertices _ (_, List.replicate (sm.numFaces + cs.numFaces) junk) r V e ?_
  intro i hi
  have hi' : i < cs.nF := by rw [List.mem_range, J.numF] at hi; exact hi
  have G := hv.1 (cs.verticesAroundFace i) (List.mem_map.2 ⟨i, hi, rfl⟩)
  refine ⟨G.1, G.2.1, fun v hv' => ?_⟩
  have := G.2.2 v hv'
  refine ⟨?_, by rw [B.vRem]; simp⟩
  rw [B.nV, I.numV]; omega

/-- The tables name the origins: of an original vertex, and of the input face in which a polygon was traced. -/
theorem frag_tables {sm cs : Mesh P} {junk : Nat} (I : Intact d sm) (J : Intact d cs) (hv : Preproc.ValidMesh cs.numVertices (polygons cs)) {threads : Option Nat}
    (hs : Sizes sm cs threads) {S : Soup P} (hS : soup junk sm cs threads = some S) {m0 : Mesh P} (I0 : Intact d m0) (h0 : S.ps.numVertices ≤ m0.numVertices) (o : Out) :
    (∀ v, vertexOrigin (fragTables d junk S sm m0 o) v = some (if v < S.ps.numVertices then some v else none)) ∧
    ∀ f g, f < o.smCount → o.faceOf f = some g → g < sm.numFaces → faceOrigin (fragTables d junk S sm m0 o) 0 f = some g := by
  obtain ⟨S', hS', M, -, -, t3, -⟩ := C60_soup junk I J hv threads hs
  rw [hS] at hS'; injection hS' with hS'; subst hS'
  constructor
  · intro v
    unfold fragTables
    rw [C60_origin_m1 junk I J hv threads hs S hS m0 I0 (by rw [← M.numV]; exact h0) [] _ (by intro q h; cases h) o.faceOf v, M.numV]
    by_cases h1 : v < m0.numVertices
    · rw [if_pos h1]
    · rw [if_neg h1, if_neg (by rw [← M.numV]; omega)]; rfl
  · intro f g hf hg hlt
    unfold fragTables faceOrigin Soup.tablesM1 sameFace
    have hfind : ((List.range o.smCount).map (fun f => (f, f))).find? (fun q => q.1 == 0 + f) = some (f, f) := by
      rw [List.find?_map]
      have : (List.range o.smCount).find? ((fun q : Nat × Nat => q.1 == 0 + f) ∘ fun f => (f, f)) = some f := by
        rw [List.find?_eq_some_iff_getElem]
        refine ⟨by simp, f, by simpa using hf, by simp, ?_⟩
        intro j hj
        simp; omega
      rw [this]; rfl
    simp only
    rw [if_pos (by simp; omega), hfind]
    simp only [Option.map_some, Option.bind_some, hg]
    rw [if_neg (by omega)]
    exact t3 g hlt

/-- **C78.** After the earlier stages, for valid input meshes made of faces, when two faces have at most one common edge, every pair of faces has exactly two points, no entry of the
registry occurs twice, all faces are cut cleanly, and every polygon of the source mesh has an edge without intersection points or exactly one original corner: the source
mesh is cut apart, and if unsealed fragments are wanted, they are made without exception (when there are recorded polygons on both sides, provided each fragment has one), for
every number of threads: exactly one for each group of polygons that hang together without crossing the cut, if fragments at its location are wanted, and no other. Each is a
copy of its polygons, its seam vertices are the copies of the intersection points, and its maps name the input vertices and faces. -/
theorem C78_fragments_partial {sm cs : Mesh P} (junk : Nat) (I : Intact d sm) (FF : FromFaces d sm) (J : Intact d cs) (hvs : Preproc.ValidMesh sm.numVertices (polygons sm))
    (hv : Preproc.ValidMesh cs.numVertices (polygons cs)) (threads : Option Nat) (hs : Sizes sm cs threads) (S : Soup P) (hS : soup junk sm cs threads = some S)
    (R : List (Nat × Nat × P)) (t : Registry.Tables P) (T : Recorded S.ps sm.numFaces S.ps.numVertices R t) (hx : CrossTested S.ps sm.numFaces t.reg) (hnd : t.reg.Nodup)
    (h2 : ∀ k, t.cut k ≠ [] → (t.cut k).length = 2) (keys : List (Nat × Nat)) (hkeys : ∀ k, k ∈ keys ↔ t.cut k ≠ []) (csort : List Nat → List Nat)
    (inside : Nat → Nat → Nat → Bool)
    (hst : cutEdges S.ps S.ps.numVertices t.reg csort inside t.cut keys (addPoints (copyVertices d S.ps).1 t.pts) = some c)
    (A : Arranges S.ps t.edges sort) (hl : AllEdges S.ps edges) (D : Divided d S.ps S.ps.numVertices t.edges sort edges c st pieces) (common : OneCommonEdge S.ps)
    (clean : ∀ f, f < sm.numFaces + cs.numFaces → CleanFace S.ps t.edges sort c f) (some' : 0 < c.m0.nE)
    (part : (Nat → Bool) → List Nat → List Nat × List Nat) (hp : IsPartition part) :
    ∃ o U, sequential S.ps st sm.numFaces S.ps.numVertices t.reg part (List.range S.ps.numFaces) = some o ∧ users st.m0.numHalfedges o.polygons = some U ∧
      ((∀ p ∈ o.polygons.take o.smCount, HasStart st.m0 S.ps.numVertices p) → (∀ n, threads = some n → o.smCount + 1024 ≤ 2 ^ 32) →
        ∀ points order : List Nat, (∀ v, S.ps.numVertices ≤ v → v < st.m0.nV → v ∈ points) → order.Perm (keysOf st.m0 sm.numVertices S.ps.numVertices U st.incoming points) →
        ∃ m1 polys1 ver orig, split d (envOf S.ps sm.numVertices sm.numFaces S.ps.numVertices (2 * c.m0.nE) t.reg st.m0 st.incoming U o) st.m0 order = some (m1, polys1) ∧
          SplitOf d st.m0 S.ps.numVertices (2 * c.m0.nE) (o.polygons.take o.smCount) m1 polys1 ver orig ∧
          ∀ (below above : List Nat) (w : FragOptions), (w.keepUnsealed = true ∨ w.keep.partly = true) →
            (below ≠ [] → above ≠ [] → ∀ f, f < o.smCount → ∃ g, g < o.smCount ∧
              SameFragment st.m0 S.ps.numVertices (2 * c.m0.nE) (o.polygons.take o.smCount) f g ∧ (g ∈ below ∨ g ∈ above)) →
            ∃ frs, unsealedList d m1 polys1 (fragArgs m1 S.ps.numVertices (fragTables d junk S sm st.m0 o) below above w) w threads = some frs ∧
              FragmentsOf d st.m0 S.ps.numVertices (2 * c.m0.nE) (o.polygons.take o.smCount) m1 polys1 orig o.faceOf
                (fragArgs m1 S.ps.numVertices (fragTables d junk S sm st.m0 o) below above w) w frs) := by
  obtain ⟨S', hS', M, -⟩ := C60_soup junk I J hv threads hs
  rw [hS] at hS'; injection hS' with hS'; subst hS'
  obtain ⟨nl, one⟩ := C78_no_loose (C78_soup junk FF I J hv threads hs S hS)
  have G := C71_given M hvs hv R t T hx hnd h2 keys hkeys csort inside c hst A hl D
  have X := crossing_of M hvs hv R t T hx h2 keys hkeys csort inside hst
  have two := (C73_two_faces M hvs hv R t T hx hnd h2 keys hkeys csort inside c hst common).2
  have cutIn := C77_cut_in M hvs hv R t T hx hnd h2 keys hkeys csort inside hst common
  have cutOne : ∀ f g a b v w, a ∈ c.faceEdges f → b ∈ c.faceEdges g → Joins c.m0 a v w → Joins c.m0 b v w → a = b := by
    obtain ⟨c', e', CG⟩ := C66_edges M hvs hv R t T hx h2 keys hkeys csort inside
    rw [hst] at e'
    obtain rfl : c = c' := Option.some.inj e'
    intro f g a b v w ha hb j1 j2
    exact CG.once a ((CG.faces f a).1 ha).1 b ((CG.faces g b).1 hb).1 v w j1 j2
  have hnF := M.numF
  have hn : sm.numFaces ≤ S.ps.numFaces := by omega
  have hlf : ∀ f, f < S.ps.numFaces ↔ LiveF S.ps f := by
    intro f
    unfold LiveF Live
    rw [M.intact.noRemoved.2, ← M.intact.numF]; simp
  have hcl : ∀ f, f < S.ps.numFaces → CleanFace S.ps t.edges sort c f := fun f hf => clean f (by omega)
  obtain ⟨o, U, poly, e, hU, F⟩ := facts_of (smV := sm.numVertices) (n := S.ps.numFaces) G one hp hn hlf (fun f hf hc => (hcl f hf hc).2) two X
    (fun f hf x hx => C77_anchored G ((hlf f).1 (by omega)) (hcl f (by omega)) hx) cutIn
  refine ⟨o, U, e, hU, fun hS' hsz points order hpts ho => ?_⟩
  obtain ⟨m1, polys1, ver, orig, q1, q2⟩ := split_of F some' hS' hpts ho
  refine ⟨m1, polys1, ver, orig, q1, q2, ?_⟩
  intro below above w hw hrec
  obtain ⟨nr1, -⟩ := C74_simple_partial G one part hp sm.numFaces S.ps.numFaces hn (fun f hf => (hlf f).1 hf) o e
  have nr := nr1 (fun f hf => hcl f (by omega))
  have hle : o.smCount ≤ o.polygons.length := by
    rw [F.L.polygons, F.L.smCount]
    exact (List.Sublist.flatMap (List.filter_sublist) _).length_le
  have hlen : (o.polygons.take o.smCount).length = o.smCount := by rw [List.length_take]; omega
  have hne : o.polygons.take o.smCount ≠ [] := by
    intro h0
    have := F.cut_source (h := 0) some'
    obtain ⟨p, hp', -⟩ := this
    rw [h0] at hp'
    cases hp'
  have I0 : Intact d st.m0 := ⟨D.valid, D.same.2.1, List.eq_nil_iff_forall_not_mem.2 (fun f hf => by have := (reachable_wf D.valid).fRem_lt f hf; rw [D.same.2.2.2] at this; omega)⟩
  have FL := F.flatOf nl (own_of M hvs)
  obtain ⟨t1, t2⟩ := frag_tables I J hv hs hS I0 (by rw [I0.numV]; exact FL.le) o
  have hface : ∀ i, i < o.smCount → ∃ f, f < sm.numFaces ∧ o.faceOf i = some f := by
    intro i hi
    obtain ⟨p, hp'⟩ : ∃ p, o.polygons[i]? = some p := ⟨_, List.getElem?_eq_getElem (by omega)⟩
    obtain ⟨f, f1, f2⟩ := F.face_lt hp' hi
    exact ⟨f, f2, f1⟩
  refine fragments_extract D.valid q2 FL (F.traced cutOne nr) hne _ below above w threads (fun n h => ⟨(hs n h).1, by rw [hlen]; exact hsz n h⟩) ?_ o.faceOf ?_ (by rw [hlen]; exact hrec) hw
  · intro v hv'
    rw [t1 v]
    by_cases h : v < st.m0.nV
    · rw [q2.kept.2 v h]
    · have := (q2.copies v (by omega) hv').1
      rw [if_neg (by have := FL.le; omega), if_neg (by omega)]
  · intro f hf
    rw [hlen] at hf
    obtain ⟨g, g1, g2⟩ := hface f hf
    rw [g2]
    exact ⟨by simp, t2 f g hf g2 g1⟩


/-- **C78 (option).** If neither unsealed nor partially sealed fragments are wanted, none are made. -/
theorem C78_off (m1 : Mesh P) (polys1 : List (List Nat)) (a : Args) (w : FragOptions) (threads : Option Nat) (h1 : w.keepUnsealed = false) (h2 : w.keep.partly = false) :
    unsealedList d m1 polys1 a w threads = some [] := by
  unfold unsealedList
  rw [h1, h2]; rfl

/-- **C78 (by location).** Each fragment is delivered in the list of its location, and in no other. -/
theorem C78_location (frs : List (Mesh P × Info)) (x : Mesh P × Info) (l : Loc) : x ∈ byLocation frs l ↔ x ∈ frs ∧ x.2.loc = l := by
  unfold byLocation
  rw [List.mem_filter, decide_eq_true_eq]

/-! ## Example: two pyramids without bases, of `C74_demo` -/

theorem runAll_from {d : P} : ∀ (l : List (Op P)) (m m' : Mesh P), FromFaces d m → (∀ op ∈ l, (∃ p, op = .addVertex p) ∨ ∃ f, op = .addFace f) → runAll m l = some m' → FromFaces d m' := by
  intro l
  induction l with
  | nil => intro m m' h _ he; simp only [runAll, Option.some.injEq] at he; exact he ▸ h
  | cons op l ih =>
    intro m m' h hop he
    unfold runAll at he
    by_cases hl : op.legalB m = true
    · rw [if_pos hl] at he
      refine ih _ _ ?_ (fun q hq => hop q (List.mem_cons_of_mem _ hq)) he
      have L := Op.legal_of hl
      rcases hop op List.mem_cons_self with ⟨p, rfl⟩ | ⟨f, rfl⟩
      · exact .vertex m p h
      · exact .face m f h L.1 L.2
    · rw [if_neg hl] at he; cases he

open Mcut.Floating Mcut.Pairs

/-- The polygons of the source mesh. -/
def pyrPolys : List (List Nat) := pyrOut.polygons.take pyrOut.smCount

theorem pyr_touch (f g : Nat) : Touch demoDivided5.m0 8 (2 * demoCut5.m0.nE) pyrPolys f g → f < 6 ∧ g < 6 ∧ (f ∈ [0, 2, 5] ↔ g ∈ [0, 2, 5]) := by
  rintro ⟨p, q, h, h', h1, h2, h3, h4, h5⟩
  have len : pyrPolys.length = 6 := by decide +kernel
  have hf : f < 6 := by rw [← len]; exact (List.getElem?_eq_some_iff.1 h1).1
  have hg : g < 6 := by rw [← len]; exact (List.getElem?_eq_some_iff.1 h2).1
  have : ∀ f ∈ List.range 6, ∀ g ∈ List.range 6, ∀ h ∈ pyrPolys.getD f [], ∀ h' ∈ pyrPolys.getD g [],
      ((demoDivided5.m0.target h = demoDivided5.m0.target h' ∧ demoDivided5.m0.target h < 8) ∨ (h' = opposite h ∧ 2 * demoCut5.m0.nE ≤ h)) → (f ∈ [0, 2, 5] ↔ g ∈ [0, 2, 5]) := by
    decide +kernel
  refine ⟨hf, hg, this f (List.mem_range.2 hf) g (List.mem_range.2 hg) h ?_ h' ?_ h5⟩
  · rw [List.getD_eq_getElem?_getD, h1]; exact h3
  · rw [List.getD_eq_getElem?_getD, h2]; exact h4

/-- The three polygons at the apex hang together, and so do the other three. -/
theorem pyr_same (f g : Nat) (hf : f < 6) (hg : g < 6) : SameFragment demoDivided5.m0 8 (2 * demoCut5.m0.nE) pyrPolys f g ↔ (f ∈ [0, 2, 5] ↔ g ∈ [0, 2, 5]) := by
  constructor
  · intro h
    clear hf hg
    induction h with
    | rel x y h => exact (pyr_touch x y h).2.2
    | refl x => exact Iff.rfl
    | symm x y _ ih => exact ih.symm
    | trans x y z _ _ ih1 ih2 => exact ih1.trans ih2
  · have len : pyrPolys.length = 6 := by decide +kernel
    have T : ∀ f g, f < 6 → g < 6 → (∃ h ∈ pyrPolys.getD f [], ∃ h' ∈ pyrPolys.getD g [], demoDivided5.m0.target h = demoDivided5.m0.target h' ∧ demoDivided5.m0.target h < 8) →
        Touch demoDivided5.m0 8 (2 * demoCut5.m0.nE) pyrPolys f g := by
      rintro f g hf hg ⟨h, h1, h', h2, h3⟩
      rw [List.getD_eq_getElem?_getD, List.getElem?_eq_getElem (by omega)] at h1 h2
      exact ⟨_, _, h, h', List.getElem?_eq_getElem (by omega), List.getElem?_eq_getElem (by omega), h1, h2, .inl h3⟩
    have a : SameFragment demoDivided5.m0 8 (2 * demoCut5.m0.nE) pyrPolys 0 2 := .rel _ _ (T 0 2 (by omega) (by omega) (by decide +kernel))
    have b : SameFragment demoDivided5.m0 8 (2 * demoCut5.m0.nE) pyrPolys 0 5 := .rel _ _ (T 0 5 (by omega) (by omega) (by decide +kernel))
    have c : SameFragment demoDivided5.m0 8 (2 * demoCut5.m0.nE) pyrPolys 3 1 := .rel _ _ (T 3 1 (by omega) (by omega) (by decide +kernel))
    have e : SameFragment demoDivided5.m0 8 (2 * demoCut5.m0.nE) pyrPolys 3 4 := .rel _ _ (T 3 4 (by omega) (by omega) (by decide +kernel))
    have k : ∀ f, f < 6 → SameFragment demoDivided5.m0 8 (2 * demoCut5.m0.nE) pyrPolys (if f ∈ [0, 2, 5] then 0 else 3) f := by
      intro f hf
      rcases (by omega : f = 0 ∨ f = 1 ∨ f = 2 ∨ f = 3 ∨ f = 4 ∨ f = 5) with rfl | rfl | rfl | rfl | rfl | rfl
      · exact .refl _
      · exact c
      · exact a
      · exact .refl _
      · exact e
      · exact b
    intro h
    have := k g hg
    simp only [← h] at this
    exact .trans _ _ _ (.symm _ _ (k f hf)) this

/-- Two pyramids without their bases, which cross each other: everything that `C78_fragments_partial` asks for holds, and so the source mesh falls apart into two fragments: the polygons at the
apex, and those at the base. -/
theorem C78_demo : ∃ m1 polys1 ver orig, SplitOf () demoDivided5.m0 8 (2 * demoCut5.m0.nE) pyrPolys m1 polys1 ver orig ∧
    ∀ w : FragOptions, w.keepUnsealed = true → w.keep.above = true → w.keep.below = true →
      ∃ G H F K T, unsealedList () m1 polys1 (fragArgs m1 8 T [1, 3, 4] [0, 2, 5] w) w none = some [F, K] ∧
        (∀ x, x ∈ G ++ H ↔ x < 6) ∧ ((∀ x, x ∈ G ↔ x ∈ [0, 2, 5]) ∨ (∀ x, x ∈ H ↔ x ∈ [0, 2, 5])) ∧ G.Disjoint H ∧
        FragmentOf () demoDivided5.m0 8 pyrPolys m1 polys1 orig pyrOut.faceOf (fragArgs m1 8 T [1, 3, 4] [0, 2, 5] w) w G F ∧
        FragmentOf () demoDivided5.m0 8 pyrPolys m1 polys1 orig pyrOut.faceOf (fragArgs m1 8 T [1, 3, 4] [0, 2, 5] w) w H K := by
  obtain ⟨J, hw, hsz, hS, hrec, hx, hnd, h2, hkeys, hst, A, hl, ⟨pieces, D⟩, one, common, -, -, clean, -, -⟩ := C74_demo
  have FF : FromFaces () demoCone := by
    have e : runAll (Mesh.empty ()) [.addVertex (), .addVertex (), .addVertex (), .addVertex (), .addFace [0, 1, 2], .addFace [0, 2, 3], .addFace [0, 3, 1]] = some demoCone :=
      some_getD (by decide +kernel)
    refine runAll_from _ _ _ .empty ?_ e
    intro op hop
    simp only [List.mem_cons, List.not_mem_nil, or_false] at hop
    rcases hop with rfl | rfl | rfl | rfl | rfl | rfl | rfl
    all_goals first | exact .inl ⟨_, rfl⟩ | exact .inr ⟨_, rfl⟩
  have nF : demoCone.numFaces = 3 := by decide +kernel
  have nV' : demoSoup5.ps.numVertices = 8 := by decide +kernel
  have nF' : demoSoup5.ps.numFaces = 6 := by decide +kernel
  obtain ⟨o, U, e1, e2, H⟩ := C78_fragments_partial 0 J FF J hw hw none hsz _ hS _ demoTables5 hrec hx hnd h2 demoKeys5 hkeys id (fun _ _ _ => true) hst A hl D common clean
    (by decide +kernel) keeping keeping_ok
  rw [nF, nV', nF'] at e1
  have eo : pyrOut = o := by unfold pyrOut; rw [e1]; rfl
  subst eo
  rw [nV'] at H
  have hstart : ∀ p ∈ pyrPolys, HasStart demoDivided5.m0 8 p := by
    have : ∀ p ∈ pyrPolys, (∃ h ∈ p, src demoDivided5.m0 h < 8 ∧ demoDivided5.m0.target h < 8) ∨
        ∃ h ∈ p, demoDivided5.m0.target h < 8 ∧ ∀ g ∈ p, demoDivided5.m0.target g < 8 → g = h := by decide +kernel
    exact this
  obtain ⟨m1, polys1, ver, orig, -, Q, H⟩ := H hstart (by intro n h; cases h) [8, 9, 10, 11, 12, 13] _ (by
    intro v h1 h2
    rw [show demoDivided5.m0.nV = 14 by decide +kernel] at h2
    simp only [List.mem_cons, List.not_mem_nil, or_false]; omega) (List.Perm.refl _)
  refine ⟨m1, polys1, ver, orig, Q, fun w h1 h2 h3 => ?_⟩
  have cnt : pyrOut.smCount = 6 := by decide +kernel
  have len : pyrPolys.length = 6 := by decide +kernel
  obtain ⟨frs, f1, groups, g1, g2, g3, g4⟩ := H [1, 3, 4] [0, 2, 5] w (.inl h1) (by
    intro _ _ f hf
    rw [cnt] at hf
    refine ⟨f, by rw [cnt]; exact hf, .refl _, ?_⟩
    simp only [List.mem_cons, List.not_mem_nil, or_false]; omega)
  change List.Forall₂ (FragmentOf () demoDivided5.m0 8 pyrPolys m1 polys1 orig pyrOut.faceOf _ w) groups frs at g1
  change ∀ G ∈ groups, G ≠ [] ∧ _ ∧ ∀ f ∈ G, ∀ g, g ∈ G ↔ g < pyrPolys.length ∧ SameFragment demoDivided5.m0 8 (2 * demoCut5.m0.nE) pyrPolys f g at g3
  change ∀ f, f < pyrPolys.length → ∀ G, (∀ g, g ∈ G ↔ g < pyrPolys.length ∧ SameFragment demoDivided5.m0 8 (2 * demoCut5.m0.nE) pyrPolys f g) → _ → _ at g4
  rw [len] at g3 g4
  have cls : ∀ G ∈ groups, (∀ x, x ∈ G ↔ x ∈ [0, 2, 5]) ∨ ∀ x, x ∈ G ↔ x ∈ [1, 3, 4] := by
    intro G hG
    obtain ⟨n, -, k⟩ := g3 G hG
    obtain ⟨f, hf⟩ := List.exists_mem_of_ne_nil G n
    have hf6 := ((k f hf f).1 hf).1
    have : ∀ x, x ∈ G ↔ x < 6 ∧ (f ∈ [0, 2, 5] ↔ x ∈ [0, 2, 5]) := by
      intro x
      rw [k f hf x]
      exact ⟨fun h => ⟨h.1, (pyr_same f x hf6 h.1).1 h.2⟩, fun h => ⟨h.1, (pyr_same f x hf6 h.1).2 h.2⟩⟩
    simp only [List.mem_cons, List.not_mem_nil, or_false] at this ⊢
    by_cases hS : f = 0 ∨ f = 2 ∨ f = 5
    · left; intro x; rw [this x]; simp only [hS, true_iff, false_iff]; omega
    · right; intro x; rw [this x]; simp only [hS, true_iff, false_iff]; omega
  have i0 : ∃ G ∈ groups, 0 ∈ G := by
    refine g4 0 (by omega) [0, 2, 5] ?_ ?_
    · intro x
      by_cases hx : x < 6
      · rw [pyr_same 0 x (by omega) hx]
        simp only [List.mem_cons, List.not_mem_nil, or_false, true_or, true_iff]; omega
      · simp only [List.mem_cons, List.not_mem_nil, or_false]; omega
    · have e : Extract.sideOf (fragArgs m1 8 (fragTables () 0 demoSoup5 demoCone demoDivided5.m0 pyrOut) [1, 3, 4] [0, 2, 5] w) [0, 2, 5] = some .above := by
        unfold Extract.sideOf fragArgs; simp
      unfold Wanted; rw [e]; exact h2
  have i3 : ∃ G ∈ groups, 3 ∈ G := by
    refine g4 3 (by omega) [1, 3, 4] ?_ ?_
    · intro x
      by_cases hx : x < 6
      · rw [pyr_same 3 x (by omega) hx]
        simp only [List.mem_cons, List.not_mem_nil, or_false]; omega
      · simp only [List.mem_cons, List.not_mem_nil, or_false]; omega
    · have e : Extract.sideOf (fragArgs m1 8 (fragTables () 0 demoSoup5 demoCone demoDivided5.m0 pyrOut) [1, 3, 4] [0, 2, 5] w) [1, 3, 4] = some .below := by
        unfold Extract.sideOf fragArgs; simp
      unfold Wanted; rw [e]; exact h3
  obtain ⟨X, x1, x2⟩ := i0
  obtain ⟨Y, y1, y2⟩ := i3
  have key : ∀ G ∈ groups, 0 ∈ G ∨ 3 ∈ G := by
    intro G hG
    rcases cls G hG with k | k
    · left; rw [k]; simp
    · right; rw [k]; simp
  have no : ∀ G ∈ groups, ¬(0 ∈ G ∧ 3 ∈ G) := by
    rintro G hG ⟨k1, k2⟩
    rcases cls G hG with k | k
    · rw [k] at k2; simp at k2
    · rw [k] at k1; simp at k1
  match groups, frs, g1, g2, f1 with
  | [], _, _, _, _ => cases x1
  | [A], _, _, _, _ =>
    rw [List.mem_singleton] at x1 y1
    subst x1; subst y1
    exact absurd ⟨x2, y2⟩ (no Y List.mem_cons_self)
  | A :: B :: C :: R, _, _, g2, _ =>
    exfalso
    rw [List.pairwise_cons, List.pairwise_cons] at g2
    have ab := g2.1 B List.mem_cons_self
    have ac := g2.1 C (List.mem_cons_of_mem _ List.mem_cons_self)
    have bc := g2.2.1 C List.mem_cons_self
    rcases key A List.mem_cons_self with ka | ka <;> rcases key B (List.mem_cons_of_mem _ List.mem_cons_self) with kb | kb <;>
      rcases key C (List.mem_cons_of_mem _ (List.mem_cons_of_mem _ List.mem_cons_self)) with kc | kc
    all_goals first | exact ab ka kb | exact ac ka kc | exact bc kb kc
  | [A, B], [F, K], .cons p (.cons q .nil), g2, f1 =>
    rw [List.pairwise_cons] at g2
    have ab := g2.1 B List.mem_cons_self
    refine ⟨A, B, F, K, _, f1, ?_, ?_, ab, p, q⟩
    · have kA := cls A List.mem_cons_self
      have kB := cls B (List.mem_cons_of_mem _ List.mem_cons_self)
      intro x
      rcases kA with kA | kA <;> rcases kB with kB | kB
      · exact absurd ((kB 0).2 (by simp)) (fun h => ab ((kA 0).2 (by simp)) h)
      · rw [List.mem_append, kA, kB]; simp only [List.mem_cons, List.not_mem_nil, or_false]; omega
      · rw [List.mem_append, kA, kB]; simp only [List.mem_cons, List.not_mem_nil, or_false]; omega
      · exact absurd ((kB 3).2 (by simp)) (fun h => ab ((kA 3).2 (by simp)) h)
    · rcases cls A List.mem_cons_self with k | k
      · exact .inl k
      · rcases cls B (List.mem_cons_of_mem _ List.mem_cons_self) with k' | k'
        · exact .inr k'
        · exact absurd ((k' 3).2 (by simp)) (fun h => ab ((k 3).2 (by simp)) h)

end Mcut.Split
