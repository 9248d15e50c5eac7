import Verif.Lemmas.C82
import Verif.Props.C26
import Verif.Props.C27

/-!
# C82: the maps of the output meshes are true
-/
namespace Mcut.Origin
open Mcut.Hmesh Mcut.Extract Mcut.Registry Mcut.CutEdges Mcut.Boundary Mcut.Trace Mcut.Split Mcut.Patches Mcut.CutPaths
variable {P : Type} {d : P} {junk : Nat} {sm cs : Mesh P} {threads : Option Nat} {S : Soup P} {R : List (Nat × Nat × P)} {t : Registry.Tables P} {keys : List (Nat × Nat)}
  {csort : List Nat → List Nat} {inside : Nat → Nat → Nat → Bool} {sort : Nat → Nat → List Nat → List Nat} {edges : List Nat} {c : CutEdges.St P} {st : Boundary.St P}
  {pieces : Nat → List Nat} {part : (Nat → Bool) → List Nat → List Nat × List Nat}

/-- **C82 (seamed meshes).** For valid input meshes in one piece each, in general position and cut cleanly: the maps of the seamed source mesh and of the seamed cut mesh are true. -/
theorem C82_seams_partial (Q : Setting d junk sm cs threads S R t keys csort inside sort edges c st pieces) {on : Nat → P → Prop} (O : Fits sm cs S.ps R on) (hp : IsPartition part)
    (osm : OneMesh sm) (ocs : OneMesh cs) (psm : 0 < sm.numFaces) (pcs : 0 < cs.numFaces) (ks : List Kind) (opt : SeamOptions) :
    ∃ tr, sequential S.ps st sm.numFaces S.ps.numVertices t.reg part (List.range S.ps.numFaces) = some tr ∧ ((∀ n, threads = some n → tr.polygons.length + 1024 ≤ 2 ^ 32) →
      (opt.keepSource = true → sourceAllowed opt.cutTight ks = true →
        ∃ x, seamedSource d st.m0 S.ps.numVertices (S.tablesM0 sm (copyVertices d S.ps).2 tr.faceOf) ks opt threads tr = some (some x) ∧
          TrueMaps sm cs on opt.popV opt.popF x.1 x.2.seams x.2.vmap x.2.fmap) ∧
      (opt.keepCut = true → cutAllowed opt.sourceTight ks = true →
        ∃ x, seamedCut d st.m0 S.ps.numVertices (S.tablesM0 sm (copyVertices d S.ps).2 tr.faceOf) ks opt threads tr = some (some x) ∧
          TrueMaps sm cs on opt.popV opt.popF x.1 x.2.seams x.2.vmap x.2.fmap)) := by
  obtain ⟨-, one⟩ := C78_no_loose (C78_soup junk Q.sourceFaces Q.source Q.cutMesh Q.cutValid threads Q.sizes S Q.merged)
  obtain ⟨tr, htr, H⟩ := C74_seamed_partial junk Q.source Q.cutMesh Q.sourceValid Q.cutValid threads Q.sizes S Q.merged R t Q.recorded Q.tested Q.once Q.twice keys Q.pairs csort inside Q.cutFound
    Q.arranged Q.all Q.divided one Q.common osm ocs psm pcs Q.clean part hp ks opt
  refine ⟨tr, htr, fun hsz => ?_⟩
  obtain ⟨H1, H2⟩ := H hsz
  constructor
  · intro h1 h2
    obtain ⟨x, x1, vs, fs, x2, -, x3, -, x4, x5⟩ := H1 h1 h2
    refine ⟨x, x1, Q.copy (low := fun v => v) O x2 (fun _ _ => rfl) (fun _ _ _ => rfl) x3 x4 x5 ?_⟩
    intro i p f _ hi hf
    refine Q.poly hp htr ?_ hf
    rw [List.getElem?_take] at hi
    split at hi
    · exact hi
    · cases hi
  · intro h1 h2
    obtain ⟨x, x1, vs, fs, x2, -, x3, -, x4, x5⟩ := H2 h1 h2
    refine ⟨x, x1, Q.copy (low := fun v => v) O x2 (fun _ _ => rfl) (fun _ _ _ => rfl) x3 x4 x5 ?_⟩
    intro i p f _ hi hf
    refine Q.poly hp htr ?_ hf
    rw [List.getElem?_drop] at hi
    exact hi

/-- **C82 (unsealed fragments).** In the situation of C78, the maps of every unsealed fragment are true. -/
theorem C82_fragments_partial (Q : Setting d junk sm cs threads S R t keys csort inside sort edges c st pieces) {on : Nat → P → Prop} (O : Fits sm cs S.ps R on) (hp : IsPartition part)
    (some' : 0 < c.m0.nE) :
    ∃ o U, sequential S.ps st sm.numFaces S.ps.numVertices t.reg part (List.range S.ps.numFaces) = some o ∧ users st.m0.numHalfedges o.polygons = some U ∧
      ((∀ p ∈ o.polygons.take o.smCount, HasStart st.m0 S.ps.numVertices p) → (∀ n, threads = some n → o.smCount + 1024 ≤ 2 ^ 32) →
        ∀ points order : List Nat, (∀ v, S.ps.numVertices ≤ v → v < st.m0.nV → v ∈ points) → order.Perm (keysOf st.m0 sm.numVertices S.ps.numVertices U st.incoming points) →
        ∃ m1 polys1, split d (envOf S.ps sm.numVertices sm.numFaces S.ps.numVertices (2 * c.m0.nE) t.reg st.m0 st.incoming U o) st.m0 order = some (m1, polys1) ∧
          ∀ (below above : List Nat) (w : FragOptions), (w.keepUnsealed = true ∨ w.keep.partly = true) →
            (below ≠ [] → above ≠ [] → ∀ f, f < o.smCount → ∃ g, g < o.smCount ∧
              SameFragment st.m0 S.ps.numVertices (2 * c.m0.nE) (o.polygons.take o.smCount) f g ∧ (g ∈ below ∨ g ∈ above)) →
            ∃ frs, unsealedList d m1 polys1 (fragArgs m1 S.ps.numVertices (fragTables d junk S sm st.m0 o) below above w) w threads = some frs ∧
              ∀ x ∈ frs, TrueMaps sm cs on w.popV w.popF x.1 x.2.seams x.2.vmap x.2.fmap) := by
  obtain ⟨o, U, ho, hU, H⟩ := C78_fragments_partial junk Q.source Q.sourceFaces Q.cutMesh Q.sourceValid Q.cutValid threads Q.sizes S Q.merged R t Q.recorded Q.tested Q.once Q.twice keys Q.pairs
    csort inside Q.cutFound Q.arranged Q.all Q.divided Q.common Q.clean some' part hp
  refine ⟨o, U, ho, hU, fun h1 h2 points order h3 h4 => ?_⟩
  obtain ⟨m1, polys1, ver, orig, hsp, SP, H⟩ := H h1 h2 points order h3 h4
  refine ⟨m1, polys1, hsp, fun below above w h5 h6 => ?_⟩
  obtain ⟨frs, f1, groups, f2, -⟩ := H below above w h5 h6
  refine ⟨frs, f1, fun x hx => ?_⟩
  obtain ⟨a, ha, rfl⟩ := List.getElem_of_mem hx
  have hlen := f2.length_eq
  have F := (List.forall₂_iff_get.1 f2).2 a (by omega) ha
  simp only [List.get_eq_getElem] at F
  obtain ⟨vs, x2, x3, -, x4, x5⟩ := F.copy
  have hbase : S.ps.numVertices ≤ st.m0.nV := by
    have := Q.given.ready.total
    rw [← Q.divided.same.1] at this
    exact this
  have use : ∀ {p : List Nat} {h : Nat}, p ∈ o.polygons.take o.smCount → h ∈ p → In (o.polygons.take o.smCount) h := fun hp hh => ⟨_, hp, hh⟩
  have hvs : ∀ v ∈ vs, v < m1.nV := by
    intro v hv
    obtain ⟨f, hf, hv⟩ := (x2.used v).1 hv
    have hr := x2.range f hf
    unfold Extract.corners at hv
    rw [List.getD_eq_getElem?_getD, List.getElem?_eq_getElem hr, Option.getD_some] at hv
    obtain ⟨y, hy, rfl⟩ := List.mem_map.1 hv
    have hm : polys1[f] ∈ (o.polygons.take o.smCount).map (fun p => p.map ver) := by
      have := List.getElem_mem hr
      exact SP.polygons ▸ this
    obtain ⟨p, hp1, hp2⟩ := List.mem_map.1 hm
    rw [← hp2] at hy
    obtain ⟨g, hg, rfl⟩ := List.mem_map.1 hy
    exact ((reachable_wf SP.mesh.1).half _ (SP.live g (use hp1 hg))).2.2.1.1
  refine Q.copy (low := orig) O x2 (fun v hv => SP.places v (hvs v hv)) ?_ x3 x4 x5 ?_
  · intro v hv hlt
    by_cases h : v < st.m0.nV
    · exact SP.kept.2 v h
    · have := (SP.copies v (by omega) (hvs v hv)).1
      omega
  · intro i p f _ hi hf
    rw [SP.polygons, List.getElem?_map] at hi
    cases hq : (o.polygons.take o.smCount)[i]? with
    | none => rw [hq] at hi; cases hi
    | some q =>
      rw [hq] at hi
      simp only [Option.map_some, Option.some.injEq] at hi
      subst hi
      have hq' : o.polygons[i]? = some q := by
        rw [List.getElem?_take] at hq
        split at hq
        · exact hq
        · cases hq
      obtain ⟨b1, b2⟩ := Q.poly hp ho hq' hf
      refine ⟨b1, fun y hy => ?_⟩
      obtain ⟨g, hg, rfl⟩ := List.mem_map.1 hy
      rw [(SP.ends g (use (List.mem_of_getElem? hq) hg)).2]
      exact b2 g hg

/-- **C82 (patches).** In the situation of C81, the maps of every patch are true. -/
theorem C82_patches_partial (Q : Setting d junk sm cs threads S R t keys csort inside sort edges c st pieces) {on : Nat → P → Prop} (O : Fits sm cs S.ps R on) (hp : IsPartition part)
    (hne : c.cutEdges ≠ []) (order : List Nat) (ond : order.Nodup) (horder : ∀ v, v ∈ order ↔ ∃ e ∈ c.cutEdges, (endsOf c.m0 e).1 = v ∨ (endsOf c.m0 e).2 = v)
    (falls : Nat → Nat → Nat → Option Bool) (down : Nat → Nat → Prop)
    (hfalls : ∀ h g x, Arrives S.ps st.m0 S.ps.numVertices t.edges sort pieces t.reg h g x → ∃ b, falls g (src st.m0 x) (st.m0.target x) = some b ∧ (b = true ↔ down h g)) :
    ∃ o U r, sequential S.ps st sm.numFaces S.ps.numVertices t.reg part (List.range S.ps.numFaces) = some o ∧ users st.m0.numHalfedges o.polygons = some U ∧
      paths (endsOf c.m0) order c.cutEdges = some r ∧
      ∀ (kinds : List Kind) (w : Wishes), kinds.length = r.seqs.length → proceeds (makingHoles kinds) r.seqs w = true → (∀ n, threads = some n → o.polygons.length + 1024 ≤ 2 ^ 32) →
        ∃ pool s adj E, seeds o.polygons o.smCount U r.seqs (makingHoles kinds) = some pool ∧ discover o.polygons U (2 * c.m0.nE) pool = some s ∧
          neighbours s.table pool = some adj ∧ exterior S.ps st.m0 sm.numVertices sm.numFaces S.ps.numVertices t.reg falls (pathAt r.vs) (makingHoles kinds) o = some E ∧
          ∀ (outside : Nat → Prop) (names : List Nat) (ext : List (Nat × Nat)) (popV popF : Bool), TwoSided o.polygons o.smCount (2 * c.m0.nE) outside →
            EdgeConnected o.polygons o.smCount (2 * c.m0.nE) → KeysOf adj names → ext.Perm E →
            ∃ red f two out, redOf s.patches.length adj = some red ∧ meaning s.table red (blueOf names red) ext = some f ∧
              reverseAll ⟨o.polygons, U, s.patches, s.table, o.faceOf, []⟩ red (blueOf names red) = some two ∧
              savePatches d st.m0 S.ps.numVertices threads (originsOf d S sm) popV popF w s.patches.length two f (merged s.patches.length red (blueOf names red)) = some out ∧
              ∀ q ∈ out, TrueMaps sm cs on popV popF q.mesh q.seams q.vmap q.fmap := by
  obtain ⟨o, U, r, ho, hU, hr, H⟩ := C81_patches_partial junk Q.source Q.sourceFaces Q.cutMesh Q.sourceValid Q.cutValid threads Q.sizes S Q.merged R t Q.recorded Q.tested Q.once Q.twice keys Q.pairs
    csort inside Q.cutFound Q.arranged Q.all Q.divided Q.common Q.clean part hp hne order ond horder falls down hfalls
  refine ⟨o, U, r, ho, hU, hr, fun kinds w h1 h2 h3 => ?_⟩
  obtain ⟨pool, s, adj, E, g1, g2, -, g3, g4, -, H⟩ := H kinds w h1 h2 h3
  refine ⟨pool, s, adj, E, g1, g2, g3, g4, fun outside names ext popV popF k1 k2 k3 k4 => ?_⟩
  obtain ⟨red, f, two, out, placeOf, e1, e2, e3, e4, SA, -⟩ := H outside names ext popV popF k1 k2 k3 k4
  refine ⟨red, f, two, out, e1, e2, e3, e4, fun q hq => ?_⟩
  obtain ⟨ls, -, -, f2⟩ := SA q.place q.asIs
  have hq' : q ∈ out.filter (fun x => x.place = q.place ∧ x.asIs = q.asIs) := by rw [List.mem_filter]; exact ⟨hq, by simp⟩
  obtain ⟨a, ha, e⟩ := List.getElem_of_mem hq'
  have hlen := f2.length_eq
  obtain ⟨l, -, F⟩ := (List.forall₂_iff_get.1 f2).2 a (by omega) ha
  simp only [List.get_eq_getElem] at F
  rw [e] at F
  obtain ⟨vs, x2, -, x3, x4⟩ := F.mesh
  refine Q.copy (low := fun v => v) (face := o.faceOf) O x2 (fun _ _ => rfl) (fun _ _ _ => rfl) x3 (fun h => ?_) (fun h => ?_) ?_
  · rw [x4 h, List.length_map]
    refine ⟨rfl, fun i v hi => ?_⟩
    rw [List.getElem?_map, hi]; rfl
  · have F2 := F.faces h
    refine ⟨F2.length_eq.symm, fun i f hi => ?_⟩
    obtain ⟨hi', rfl⟩ := List.getElem?_eq_some_iff.1 hi
    have hl2 := F2.length_eq
    have := ((List.forall₂_iff_get.1 F2).2 i hi' (by omega)).1
    simp only [List.get_eq_getElem] at this
    rw [this, List.getElem?_eq_getElem]
  · intro i p f _ hi hf
    by_cases ha' : q.asIs = true
    · rw [if_pos ha'] at hi
      exact Q.poly hp ho hi hf
    · rw [if_neg ha', List.getElem?_map] at hi
      cases hq2 : o.polygons[i]? with
      | none => rw [hq2] at hi; cases hi
      | some p' =>
        rw [hq2] at hi
        simp only [Option.map_some, Option.some.injEq] at hi
        subst hi
        obtain ⟨b1, b2⟩ := Q.poly hp ho hq2 hf
        exact ⟨b1, fun h hh => b2 h (List.mem_reverse.1 hh)⟩

section triangles
open Mcut.Whole
variable {K : Type} [Field K] [LinearOrder K] [IsStrictOrderedRing K] {d : Box.V3 K} {sm cs ps : Mesh (Box.V3 K)}

/-- **C82 (triangles).** For triangle meshes in general position, in exact arithmetic (the setting of C69): being on an input face can be taken literally, as being a point of the triangle. So with
the theorems above every face of an output mesh has all its corners in the triangle that its face map names. -/
theorem C82_triangles (M : MergeOf d sm cs ps) (hs : Preproc.ValidMesh sm.numVertices (polygons sm)) (hc : Preproc.ValidMesh cs.numVertices (polygons cs)) {l : Nat → K}
    (G : Triangles ps sm.numFaces l) {test : Nat → Nat → Outcome (Box.V3 K)} (hT : TestOf ps l test) {bot top : K} {bS bC : Nat → Box.BBox K}
    (B : Boxed bot top bS bC sm.numFaces ps) {cand : List (Nat × List Nat)} (hcand : Whole.CandidatesOf bot top bS bC sm.numFaces ps cand) (hno : ¬ Violated test cand)
    {t : Tables (Box.V3 K)} (T : Recorded ps sm.numFaces ps.numVertices (hits test cand) t) (keys : List (Nat × Nat)) (hkeys : ∀ k, k ∈ keys ↔ t.cut k ≠ []) :
    Fits sm cs ps (hits test cand) (OnClientFace sm cs) := by
  obtain ⟨hnd, hx, h2, -⟩ := C69_pairs M hs hc G hT B hcand hno T
  obtain ⟨c, hst, CG⟩ := C66_edges M hs hc _ t T hx (fun k hk => (h2 k hk).1) keys hkeys id (fun _ _ _ => true)
  obtain ⟨-, -, hpos⟩ := addPoints_bare t.pts _ _ (copyVertices_bare M.intact)
  have Kn := known_of M hs hc T hx
  have C := C29_consistent M.intact.reach
  have point : ∀ r ∈ hits test cand, ∃ a b c' s, r.2.1 < ps.numFaces ∧ LiveE ps r.1 ∧ Whole.corners ps r.2.1 = [a, b, c'] ∧ Geom.InTriangle a b c' (pt r.2.2) ∧
      Between (pt (ps.pos (ps.edgeVertex r.1 0))) (pt (ps.pos (ps.edgeVertex r.1 1))) (pt r.2.2) s := by
    intro r hr
    obtain ⟨i, hi, rfl⟩ := List.getElem_of_mem hr
    have hg := List.getElem?_eq_getElem hi
    have hreg : t.reg[i]? = some ((hits test cand)[i].1, (hits test cand)[i].2.1) := by rw [T.reg, List.getElem?_map, hg]; rfl
    obtain ⟨a, b, c', s, q1, q2, q3, q4⟩ := point_place M hs hc G hT B hcand hno T keys hkeys id (fun _ _ _ => true) hst hreg
    have e : c.m0.pos (ps.numVertices + i) = (hits test cand)[i].2.2 := by
      rw [CG.mesh.pos]
      exact hpos i _ (by rw [T.pts, List.getElem?_map, hg]; rfl)
    rw [e] at q3 q4
    obtain ⟨f, -, -, f3, -⟩ := hx _ (List.mem_of_getElem? hreg)
    exact ⟨a, b, c', s, f3, Kn.live _ (List.mem_of_getElem? hreg), q1, (Geom.inTriangle_iff q2).2 (.inl q3), q4⟩
  have clientTri : ∀ f, f < ps.numFaces → ∀ x a b c', Whole.corners ps f = [a, b, c'] → Geom.InTriangle a b c' (pt x) → OnClientFace sm cs f x := fun f hf x a b c' h1 h2 =>
    three_rot (face_corners M hs hc hf) ⟨a, b, c', h1, h2⟩
  refine ⟨?_, ?_, ?_⟩
  · intro f v hf hv
    have hf' : f < ps.numFaces := by rw [M.numF]; exact hf
    obtain ⟨a, b, c', h1, -⟩ := G.testable f hf'
    refine clientTri f hf' _ a b c' h1 (Geom.inTriangle_corner ?_)
    rw [← h1, (face_corners M hs hc hf').mem_iff]
    exact List.mem_map.2 ⟨v, hv, rfl⟩
  · intro r hr
    obtain ⟨a, b, c', s, h1, -, h3, h4, -⟩ := point r hr
    exact clientTri _ h1 _ a b c' h3 h4
  · intro r hr f hf
    obtain ⟨-, -, -, s, -, hl, -, -, h5⟩ := point r hr
    have hf' : f < ps.numFaces := by
      have key : ∀ i, i < 2 → ps.face (halfedgeOf r.1 i) = some f → f < ps.numFaces := by
        intro i hi h
        have := (C.chain (halfedgeOf r.1 i) f (by
          rw [(reachable_wf M.intact.reach).liveH_iff, show halfedgeOf r.1 i / 2 = r.1 by unfold halfedgeOf; omega]; exact hl) h).1.1
        rw [M.intact.numF]; exact this
      rcases hf with h | h
      · exact key 0 (by omega) h
      · exact key 1 (by omega) h
    have lf := live_face M hf'
    obtain ⟨e1, e2⟩ := Pairs.edge_in_face M.intact.reach lf ((onEdge_iff M.intact.reach lf).1 ⟨hl, hf⟩)
    obtain ⟨a, b, c', h1, -⟩ := G.testable f hf'
    refine clientTri f hf' _ a b c' h1 (Geom.inTriangle_between (Geom.inTriangle_corner ?_) (Geom.inTriangle_corner ?_) h5)
    · rw [← h1]; exact List.mem_map.2 ⟨_, e1, rfl⟩
    · rw [← h1]; exact List.mem_map.2 ⟨_, e2, rfl⟩

end triangles

section client
open Mcut.Dispatch Mcut.Preproc Mcut.Partition
variable {D A B : Type}

/-- **C82 (what the client reads).** After any dispatch, with any number of partitionings: take an output mesh of the last kernel call whose maps are true (theorems above), as the client reads it (`userVertex` and
`userFace` are applied to every entry, undefined entries are `UNDEF`). Then every entry of the vertex map is undefined or names a vertex of the client's meshes in the same place (up to the perturbation,
for the cut mesh), different ones for different vertices; it is undefined exactly for seam vertices and vertices in the places of vertices added by partitioning. Every entry of the face map
names the client's face of which the face of the kernel's input is a part. -/
theorem C82_client_partial {c : Client} (hc : c.Sized) {env : LoadEnv} {enc : Enclosure} {its : List (Iter D)} (L : Possible c env its) {s : Dispatch.St} {cs : List (Stored D)} {ty : Option IType}
    (h : preproc c env enc its = some (.ok s cs ty)) (hne : cs ≠ []) :
    ∃ call e1 e2 ms mc Hs Hc, s.calls.getLast? = some call ∧
      loadArrays (0, 0, 0) c.src c.srcPts e1 = .mesh ms ∧ Evolves ms Hs call.src ∧
      loadArrays (0, 0, 0) c.cut (c.cutPts.map (fun p => Pt.add p call.pert)) e2 = .mesh mc ∧ Evolves mc Hc call.cut ∧
      (call.src.numVertices + call.cut.numVertices ≤ CC.UNDEF → ∀ x ∈ cs, ∀ k : CC.Comp A B, Tagged x k →
        ∀ (on : Nat → Pt → Prop) (popV popF : Bool) (mesh : Mesh Pt) (seams : List Nat) (vmap : List (Option Nat)) (fmap : List Nat), TrueMaps call.src call.cut on popV popF mesh seams vmap fmap →
          (popV = true → ∃ user : List Nat, user = vmap.map (fun v => CC.userVertex k (v.getD CC.UNDEF)) ∧ user.length = mesh.numVertices ∧
            (∀ i u : Nat, user[i]? = some u → u ≠ CC.UNDEF →
              (∃ p, c.srcPts[u]? = some p ∧ mesh.pos i = p) ∨ (∃ p, c.src.numVertices ≤ u ∧ c.cutPts[u - c.src.numVertices]? = some p ∧ mesh.pos i = Pt.add p call.pert)) ∧
            (∀ i : Nat, user[i]? = some CC.UNDEF → i ∈ seams ∨ (∃ v, c.src.numVertices ≤ v ∧ v < call.src.numVertices ∧ mesh.pos i = call.src.pos v) ∨
              (∃ v, c.cut.numVertices ≤ v ∧ v < call.cut.numVertices ∧ mesh.pos i = call.cut.pos v)) ∧
            (∀ i ∈ seams, user[i]? = some CC.UNDEF) ∧
            (∀ i j u : Nat, user[i]? = some u → user[j]? = some u → u ≠ CC.UNDEF → i = j)) ∧
          (popF = true → ∀ i f : Nat, fmap[i]? = some f →
            (f < call.src.numFaces ∧ CC.userFace k f = origin Hs f ∧ origin Hs f < c.src.numFaces) ∨
            (∃ g, f = call.src.numFaces + g ∧ g < call.cut.numFaces ∧ CC.userFace k f = c.src.numFaces + origin Hc g ∧ origin Hc g < c.cut.numFaces))) := by
  obtain ⟨call, e1, e2, ms, mc, Hs, Hc, hlast, l1, l2, l3, l4, HF⟩ := C27_face_map_partial (A := A) (B := B) hc L h hne
  obtain ⟨call', hl, h1, h2, h3, h4, HV⟩ := C26_vertex_map_partial (A := A) (B := B) hc L h hne
  rw [hlast] at hl; cases hl
  refine ⟨call, e1, e2, ms, mc, Hs, Hc, hlast, l1, l2, l3, l4, ?_⟩
  intro hmax x hx k T on popV popF mesh seams vmap fmap M
  have inj := (C26_injective hc L h hne call hlast hmax x hx k T).2
  obtain ⟨u0, u1, u2⟩ := HV hmax x hx k T
  obtain ⟨f1, f2⟩ := HF x hx k T
  constructor
  · intro hv
    have entry : ∀ i u : Nat, (vmap.map (fun v => CC.userVertex k (v.getD CC.UNDEF)))[i]? = some u → vmap[i]? = some none ∧ u = CC.UNDEF ∨ ∃ v, vmap[i]? = some (some v) ∧ u = CC.userVertex k v := by
      intro i u hi
      rw [List.getElem?_map] at hi
      cases hq : vmap[i]? with
      | none => rw [hq] at hi; cases hi
      | some w =>
        rw [hq, Option.map_some, Option.some.injEq] at hi
        cases w with
        | none => exact .inl ⟨rfl, by rw [← hi]; exact u0⟩
        | some v => exact .inr ⟨v, rfl, hi.symm⟩
    have bound : ∀ (i : Nat) (v : Option Nat), vmap[i]? = some v → i < mesh.numVertices := fun i v hi => by
      rw [← M.numV hv]; exact (List.getElem?_eq_some_iff.1 hi).1
    refine ⟨_, rfl, by rw [List.length_map]; exact M.numV hv, ?_, ?_, ?_, ?_⟩
    · intro i u hi hu
      rcases entry i u hi with ⟨-, e⟩ | ⟨v, e, rfl⟩
      · exact absurd e hu
      obtain ⟨q1, q2⟩ := M.same hv i v e
      unfold clientPos at q2
      by_cases hs : v < call.src.numVertices
      · rw [if_pos hs] at q2
        rw [u1 v hs] at hu ⊢
        by_cases hn : v < c.src.numVertices
        · rw [if_pos hn]
          have hlt : v < c.srcPts.length := by rw [hc.srcPts]; exact hn
          exact .inl ⟨_, List.getElem?_eq_getElem hlt, by rw [q2]; exact h3 v _ (List.getElem?_eq_getElem hlt)⟩
        · rw [if_neg hn] at hu; exact absurd rfl hu
      · rw [if_neg hs] at q2
        have e' := u2 (v - call.src.numVertices) (by omega)
        rw [show call.src.numVertices + (v - call.src.numVertices) = v by omega] at e'
        rw [e'] at hu ⊢
        by_cases hn : v - call.src.numVertices < c.cut.numVertices
        · rw [if_pos hn]
          have hlt : v - call.src.numVertices < c.cutPts.length := by rw [hc.cutPts]; exact hn
          refine .inr ⟨_, by omega, ?_, by rw [q2]; exact h4 _ _ (List.getElem?_eq_getElem hlt)⟩
          rw [show c.src.numVertices + (v - call.src.numVertices) - c.src.numVertices = v - call.src.numVertices by omega]
          exact List.getElem?_eq_getElem hlt
        · rw [if_neg hn] at hu; exact absurd rfl hu
    · intro i hi
      rcases entry i _ hi with ⟨e, -⟩ | ⟨v, e, e3⟩
      · exact .inl ((M.seam hv i (bound i _ e)).1 e)
      obtain ⟨q1, q2⟩ := M.same hv i v e
      unfold clientPos at q2
      right
      by_cases hs : v < call.src.numVertices
      · rw [if_pos hs] at q2
        rw [u1 v hs] at e3
        by_cases hn : v < c.src.numVertices
        · rw [if_pos hn] at e3; omega
        · exact .inl ⟨v, by omega, hs, q2⟩
      · rw [if_neg hs] at q2
        have e' := u2 (v - call.src.numVertices) (by omega)
        rw [show call.src.numVertices + (v - call.src.numVertices) = v by omega] at e'
        rw [e'] at e3
        by_cases hn : v - call.src.numVertices < c.cut.numVertices
        · rw [if_pos hn] at e3; omega
        · exact .inr ⟨_, by omega, by omega, q2⟩
    · intro i hi
      rw [List.getElem?_map, (M.seam hv i (M.seamVertices i hi)).2 hi, Option.map_some]
      exact congrArg some u0
    · intro i j u hi hj hu
      rcases entry i u hi with ⟨-, e⟩ | ⟨v, e, e'⟩
      · exact absurd e hu
      rcases entry j u hj with ⟨-, g⟩ | ⟨w, g, g'⟩
      · exact absurd g hu
      have : v = w := inj v w (M.same hv i v e).1 (M.same hv j w g).1 (by rw [← e', ← g']) (by rw [← e']; exact hu)
      subst this
      exact M.different hv i j v e g
  · intro hf i f hi
    have hlt := (M.face hf i f hi).1
    by_cases hs : f < call.src.numFaces
    · exact .inl ⟨hs, f1 f hs⟩
    · obtain ⟨g1, g2⟩ := f2 (f - call.src.numFaces) (by omega)
      rw [show call.src.numFaces + (f - call.src.numFaces) = f by omega] at g1
      exact .inr ⟨_, by omega, by omega, g1, g2⟩

end client

section demo
open Mcut.Floating Mcut.Pairs

/-- The hypotheses are met: two pyramids without bottom that cross each other (C74). -/
theorem C82_demo : ∃ pieces, Setting () 0 demoCone demoCone none demoSoup5 (hits demoTest5 demoCand5) demoTables5 demoKeys5 id (fun _ _ _ => true) demoSort (List.range 12) demoCut5 demoDivided5 pieces ∧
    Fits demoCone demoCone demoSoup5.ps (hits demoTest5 demoCand5) (fun _ _ => True) ∧ OneMesh demoCone ∧ 0 < demoCone.numFaces := by
  obtain ⟨J, hw, hsz, hS, hrec, hx, hnd, h2, hkeys, hst, A, hl, ⟨pieces, D⟩, one, common, om, hpos, clean, -, -⟩ := C74_demo
  have FF : FromFaces () demoCone := by
    have e : runAll (Mesh.empty ()) [.addVertex (), .addVertex (), .addVertex (), .addVertex (), .addFace [0, 1, 2], .addFace [0, 2, 3], .addFace [0, 3, 1]] = some demoCone :=
      some_getD (by decide +kernel)
    refine runAll_from _ _ _ .empty ?_ e
    intro op hop
    simp only [List.mem_cons, List.not_mem_nil, or_false] at hop
    rcases hop with rfl | rfl | rfl | rfl | rfl | rfl | rfl
    all_goals first | exact .inl ⟨_, rfl⟩ | exact .inr ⟨_, rfl⟩
  exact ⟨pieces, ⟨J, FF, J, hw, hw, hsz, hS, hrec, hx, hnd, h2, hkeys, hst, A, hl, D, common, clean⟩, ⟨fun _ _ _ _ => trivial, fun _ _ => trivial, fun _ _ _ _ => trivial⟩, om, hpos⟩

end demo

end Mcut.Origin
