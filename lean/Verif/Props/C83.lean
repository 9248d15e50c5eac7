import Verif.Lemmas.C83Main
import Verif.Props.C82
import Verif.Props.C81

/-!
# C83: the patches are stitched to the fragments
-/
namespace Mcut.Stitch
open Mcut.Hmesh Mcut.Extract Mcut.Registry Mcut.CutEdges Mcut.Boundary Mcut.Trace Mcut.Split Mcut.Patches Mcut.CutPaths Mcut.Origin
variable {P : Type} {d : P} {junk : Nat} {sm cs : Mesh P} {threads : Option Nat} {S : Soup P} {R : List (Nat × Nat × P)} {t : Registry.Tables P} {keys : List (Nat × Nat)}
  {csort : List Nat → List Nat} {inside : Nat → Nat → Nat → Bool} {sort : Nat → Nat → List Nat → List Nat} {edges : List Nat} {c : CutEdges.St P} {st : Boundary.St P}
  {pieces : Nat → List Nat} {part : (Nat → Bool) → List Nat → List Nat × List Nat}

/-- What is known about the polygons that have been traced. -/
theorem facts_in (Q : Setting d junk sm cs threads S R t keys csort inside sort edges c st pieces) (hp : IsPartition part) :
    ∃ o U poly, sequential S.ps st sm.numFaces S.ps.numVertices t.reg part (List.range S.ps.numFaces) = some o ∧ users st.m0.numHalfedges o.polygons = some U ∧
      CutFacts d S.ps sm.numVertices sm.numFaces S.ps.numVertices t.edges sort edges c st pieces t.reg S.ps.numFaces o U poly ∧ OneCut c ∧ SimpleSource st.m0 o := by
  have M := Q.merge
  obtain ⟨-, one⟩ := C78_no_loose (C78_soup junk Q.sourceFaces Q.source Q.cutMesh Q.cutValid threads Q.sizes S Q.merged)
  obtain ⟨o, U, poly, e, hU, C⟩ := cut_facts M Q.sourceValid Q.cutValid R t Q.recorded Q.tested Q.once Q.twice keys Q.pairs csort inside Q.cutFound Q.arranged Q.all Q.divided one Q.common Q.clean part hp
  refine ⟨o, U, poly, e, hU, C, ?_, ?_⟩
  · intro f g a b v w ha hb j1 j2
    have CG := Q.graph
    exact CG.once a ((CG.faces f a).1 ha).1 b ((CG.faces g b).1 hb).1 v w j1 j2
  · have hnF := M.numF
    exact (C74_simple_partial Q.given one part hp sm.numFaces S.ps.numFaces (by omega) (fun f hf => ⟨by rw [← M.intact.numF]; exact hf, by rw [M.intact.noRemoved.2]; simp⟩) o e).1
      (fun f hf => Q.clean f (by omega))

/-- The fragments, and the table of their halfedges. -/
theorem halves_of {ps : Mesh P} {smV smF base n : Nat} {pts : Nat → List Nat} {reg : List (Nat × Nat)} {o : Out} {T : Nat → List Nat} {poly : Nat → List (List Nat)}
    (C : CutFacts d ps smV smF base pts sort edges c st pieces reg n o T poly) (cutOne : OneCut c) (simple : SimpleSource st.m0 o) (some' : 0 < c.m0.nE)
    (hS : ∀ p ∈ o.polygons.take o.smCount, HasStart st.m0 base p) {order points : List Nat} (hpts : ∀ v, base ≤ v → v < st.m0.nV → v ∈ points)
    (ho : order.Perm (keysOf st.m0 smV base T st.incoming points)) :
    ∃ m1 polys1 ver orig ihe, split d (envOf ps smV smF base (2 * c.m0.nE) reg st.m0 st.incoming T o) st.m0 order = some (m1, polys1) ∧
      SplitOf d st.m0 base (2 * c.m0.nE) (o.polygons.take o.smCount) m1 polys1 ver orig ∧
      iheOf d (envOf ps smV smF base (2 * c.m0.nE) reg st.m0 st.incoming T o) st.m0 order = some ihe ∧ (∀ h, edgeOf h < c.m0.nE → ihe h = some (ver h)) ∧ Single m1 := by
  obtain ⟨m1, polys1, ver, orig, he, hs, V, HT⟩ := split_of' C.F some' hS hpts ho
  obtain ⟨s, s1, -, s2⟩ := HT.ihe
  obtain ⟨L, -⟩ := link_spec st.m0 (o.polygons.take o.smCount)
  refine ⟨m1, polys1, ver, orig, s.ihe, hs, V, ?_, ?_, C.single1 cutOne simple V HT⟩
  · unfold iheOf
    rw [s1]; rfl
  · intro h hc
    refine s2 h (C.F.cut_source hc) (.inl ?_)
    show base ≤ src (link st.m0 (o.polygons.take o.smCount)) h
    rw [L.src]
    exact (C.F.cut_ends hc).1

/-- The patches, the colours, the reversed patches and their seeds. -/
theorem colours_in {ps : Mesh P} {smV smF base n : Nat} {pts : Nat → List Nat} {reg : List (Nat × Nat)} {o : Out} {T : Nat → List Nat} {poly : Nat → List (List Nat)}
    (C : CutFacts d ps smV smF base pts sort edges c st pieces reg n o T poly) (hne : c.cutEdges ≠ []) (order : List Nat) (ond : order.Nodup)
    (horder : ∀ v, v ∈ order ↔ ∃ e ∈ c.cutEdges, (endsOf c.m0 e).1 = v ∨ (endsOf c.m0 e).2 = v) :
    ∃ r, paths (endsOf c.m0) order c.cutEdges = some r ∧
      ∀ (kinds : List Kind) (w : Wishes), kinds.length = r.seqs.length → proceeds (makingHoles kinds) r.seqs w = true →
        ∃ pool s adj, seeds o.polygons o.smCount T r.seqs (makingHoles kinds) = some pool ∧ discover o.polygons T (2 * c.m0.nE) pool = some s ∧
          PatchesOf o.polygons o.smCount (2 * c.m0.nE) s.patches ∧ TableOf s.patches s.table ∧ StartsOf o.polygons (2 * c.m0.nE) s.patches s.starts ∧ neighbours s.table pool = some adj ∧
          ∀ (outside : Nat → Prop) (names : List Nat), TwoSided o.polygons o.smCount (2 * c.m0.nE) outside → EdgeConnected o.polygons o.smCount (2 * c.m0.nE) → KeysOf adj names →
            ∃ red two news all, redOf s.patches.length adj = some red ∧ ColoursOf s.patches outside red (blueOf names red) ∧
              reverseAll ⟨o.polygons, T, s.patches, s.table, o.faceOf, []⟩ red (blueOf names red) = some two ∧ Doubled o T s.patches s.table (red ++ blueOf names red) two news ∧
              allStarts two o.polygons.length s.starts = some all := by
  obtain ⟨r, hr, Q, -⟩ := C67_sequences C.curves hne order ond horder
  refine ⟨r, hr, fun kinds w hlen hpr => ?_⟩
  unfold proceeds at hpr
  rw [Bool.and_eq_true, beq_iff_eq] at hpr
  have hh := holes_all (by rw [hpr.1, hlen] : (makingHoles kinds).length = kinds.length)
  rw [hh, hlen]
  obtain ⟨pool, s, hpool, hs, PS, TS, SS⟩ := patches_of C Q
  obtain ⟨adj, hadj, hlt, hacr, hback⟩ := C.neighbours Q hpool PS TS
  have pos : 0 < c.m0.nE := by
    obtain ⟨x, hx⟩ := List.exists_mem_of_ne_nil _ hne
    have := (C.all x).1 hx
    omega
  refine ⟨pool, s, adj, hpool, hs, PS, TS, SS, hadj, fun outside names tw con hnames => ?_⟩
  obtain ⟨red, hred, CO⟩ := C.colours PS pos hlt hacr hback tw con hnames
  obtain ⟨two, news, h1, D⟩ := doubled_of (o := o) (T := T) (pats := s.patches) (table := s.table) (red := red) (blue := blueOf names red) (by
      intro l hl j hj
      obtain ⟨a1, a2⟩ := (PS.whole l hl).2.1 j hj
      obtain ⟨f, f1, -⟩ := C.face a1 (List.getElem?_eq_getElem a2)
      exact ⟨_, f, List.getElem?_eq_getElem a2, f1⟩) (by
      intro j hj
      cases hc : o.faceOf j with
      | none => rfl
      | some f =>
        obtain ⟨p, hp'⟩ := C.F.L.poly_of hc
        have := (List.getElem?_eq_some_iff.1 hp').1
        omega) (fun k hk => (CO.all k).1 hk)
  obtain ⟨all, h2, -⟩ := C.starts (base := base) (reg := reg) (ihe := fun _ => none) PS D CO.nodup (fun k hk => (CO.all k).1 hk) SS
  exact ⟨red, two, news, all, hred, CO, h1, D, h2⟩

/-- The patches of one colour are on one side. -/
theorem one_side {pats : List (List Nat)} {outside : Nat → Prop} {red blue : List Nat} (CO : ColoursOf pats outside red blue) {x : Bool × List Nat} (hx : x ∈ merged pats.length red blue) :
    ∃ cl off, x.2 = cl ++ oppositesOf (pats.length + off) cl ∧ (∀ i, i < cl.length → (red ++ blue)[off + i]? = cl[i]?) ∧
      ∀ k ∈ cl, ∀ k' ∈ cl, ∀ l l' i i', pats[k]? = some l → pats[k']? = some l' → i ∈ l → i' ∈ l' → (outside i ↔ outside i') := by
  unfold merged at hx
  rcases List.mem_cons.1 hx with rfl | hx
  · refine ⟨red, 0, rfl, ?_, ?_⟩
    · intro i hi
      rw [Nat.zero_add, List.getElem?_append_left hi]
    · intro k hk k' hk' l l' i i' h1 h2 h3 h4
      exact (CO.same k k' l l' i i' h1 h2 h3 h4).1 ⟨fun _ => hk', fun _ => hk⟩
  · rw [List.mem_singleton] at hx
    subst hx
    refine ⟨blue, red.length, rfl, ?_, ?_⟩
    · intro i hi
      rw [List.getElem?_append_right (by omega), show red.length + i - red.length = i by omega]
    · intro k hk k' hk' l l' i i' h1 h2 h3 h4
      have nr : ∀ k ∈ blue, k ∉ red := fun k hk h => (List.nodup_append.1 CO.nodup).2.2 k h k hk rfl
      exact (CO.same k k' l l' i i' h1 h2 h3 h4).1 ⟨fun h => absurd h (nr k hk), fun h => absurd h (nr k' hk')⟩

/-- **C83.** For valid input meshes in general position, cut cleanly, with cut paths that all make holes, and a cut mesh whose polygons hang together and lie on two sides of the source mesh (the conditions of
C77 and C80): the fragments are cut apart, the patches are found, coloured and reversed, and then, for each of the two colours, the patches of that colour — as they are and reversed — are stitched to the
fragments, without exception. The result is the mesh of the fragments with all polygons of these patches, each exactly once, with its corners in the same places. Along the cut each of them uses the
very edge of the polygon of the source mesh on its other side; polygons of a patch that were neighbours still are; and there are no other common edges — so no edge gets more than two polygons. The
vertices of a patch as it is are those of the cut mesh; a reversed patch has copies of its own. -/
theorem C83_stitched_partial (Q : Setting d junk sm cs threads S R t keys csort inside sort edges c st pieces) (hp : IsPartition part)
    (hne : c.cutEdges ≠ []) (order : List Nat) (ond : order.Nodup) (horder : ∀ v, v ∈ order ↔ ∃ e ∈ c.cutEdges, (endsOf c.m0 e).1 = v ∨ (endsOf c.m0 e).2 = v) :
    ∃ o U r, sequential S.ps st sm.numFaces S.ps.numVertices t.reg part (List.range S.ps.numFaces) = some o ∧ users st.m0.numHalfedges o.polygons = some U ∧
      paths (endsOf c.m0) order c.cutEdges = some r ∧
      ((∀ p ∈ o.polygons.take o.smCount, HasStart st.m0 S.ps.numVertices p) → ∀ points vorder : List Nat, (∀ v, S.ps.numVertices ≤ v → v < st.m0.nV → v ∈ points) →
        vorder.Perm (keysOf st.m0 sm.numVertices S.ps.numVertices U st.incoming points) →
        ∃ m1 polys1 ver orig ihe, split d (envOf S.ps sm.numVertices sm.numFaces S.ps.numVertices (2 * c.m0.nE) t.reg st.m0 st.incoming U o) st.m0 vorder = some (m1, polys1) ∧
          SplitOf d st.m0 S.ps.numVertices (2 * c.m0.nE) (o.polygons.take o.smCount) m1 polys1 ver orig ∧
          iheOf d (envOf S.ps sm.numVertices sm.numFaces S.ps.numVertices (2 * c.m0.nE) t.reg st.m0 st.incoming U o) st.m0 vorder = some ihe ∧
          ∀ (kinds : List Kind) (w : Wishes), kinds.length = r.seqs.length → proceeds (makingHoles kinds) r.seqs w = true →
            ∃ pool s adj, seeds o.polygons o.smCount U r.seqs (makingHoles kinds) = some pool ∧ discover o.polygons U (2 * c.m0.nE) pool = some s ∧ neighbours s.table pool = some adj ∧
              PatchesOf o.polygons o.smCount (2 * c.m0.nE) s.patches ∧
              ∀ (outside : Nat → Prop) (names : List Nat), TwoSided o.polygons o.smCount (2 * c.m0.nE) outside → EdgeConnected o.polygons o.smCount (2 * c.m0.nE) → KeysOf adj names →
                ∃ red two all, redOf s.patches.length adj = some red ∧ ColoursOf s.patches outside red (blueOf names red) ∧
                  reverseAll ⟨o.polygons, U, s.patches, s.table, o.faceOf, []⟩ red (blueOf names red) = some two ∧
                  WithReversed o.polygons s.patches (red ++ blueOf names red) two.polys two.patches ∧ allStarts two o.polygons.length s.starts = some all ∧
                  ∀ x ∈ merged s.patches.length red (blueOf names red), ∃ sS at' half made,
                    stitchColour ⟨st.m0, S.ps.numVertices, t.reg, ihe, two, o.smCount, o.polygons.length, s.patches.length, []⟩ all m1 polys1 x.2 = some sS ∧
                    StitchedOf d st.m0 S.ps.numVertices (2 * c.m0.nE) s.patches.length (o.polygons.take o.smCount) two.polys two.patches x.2 m1 polys1 ver orig sS.m sS.polys sS.faces sS.cmv at' half made) := by
  obtain ⟨o, U, poly, e, hU, C, cutOne, simple⟩ := facts_in Q hp
  obtain ⟨r, hr, H⟩ := colours_in C hne order ond horder
  have pos : 0 < c.m0.nE := by
    obtain ⟨x, hx⟩ := List.exists_mem_of_ne_nil _ hne
    have := (C.all x).1 hx
    omega
  refine ⟨o, U, r, e, hU, hr, fun hS points vorder hpts hperm => ?_⟩
  obtain ⟨m1, polys1, ver, orig, ihe, h1, V, h2, hihe, single⟩ := halves_of C cutOne simple pos hS hpts hperm
  refine ⟨m1, polys1, ver, orig, ihe, h1, V, h2, fun kinds w hlen hpr => ?_⟩
  obtain ⟨pool, s, adj, g1, g2, PS, TS, SS, g3, H⟩ := H kinds w hlen hpr
  refine ⟨pool, s, adj, g1, g2, g3, PS, fun outside names tw con hn => ?_⟩
  obtain ⟨red, two, news, all, k1, CO, k2, D, k3⟩ := H outside names tw con hn
  refine ⟨red, two, all, k1, CO, k2, D.withReversed, k3, fun x hx => ?_⟩
  obtain ⟨cl, off, e1, e2, e3⟩ := one_side CO hx
  rw [e1]
  exact C.colour (by have := Q.merge.numV; omega) cutOne simple V single hihe PS TS SS tw D CO.nodup (fun k hk => (CO.all k).1 hk) k3 e2 e3

section demo
open Mcut.Floating Mcut.Pairs

/-- The two pyramids of C74: the halfedges of the fragments for those of "m0". -/
def pyrIhe : Nat → Option Nat :=
  (iheOf () (envOf demoSoup5.ps 4 3 8 12 demoTables5.reg demoDivided5.m0 demoDivided5.incoming pyrUsers pyrOut) demoDivided5.m0
    (keysOf demoDivided5.m0 4 8 pyrUsers demoDivided5.incoming [8, 9, 10, 11, 12, 13])).getD (fun _ => none)

/-- The two pyramids of C74: the fragments. -/
def pyrSplit : Mesh Unit × List (List Nat) :=
  (split () (envOf demoSoup5.ps 4 3 8 12 demoTables5.reg demoDivided5.m0 demoDivided5.incoming pyrUsers pyrOut) demoDivided5.m0
    (keysOf demoDivided5.m0 4 8 pyrUsers demoDivided5.incoming [8, 9, 10, 11, 12, 13])).getD (Mesh.empty (), [])

/-- The two pyramids of C74: the patches. -/
def pyrFound : Found :=
  ((seeds pyrOut.polygons 6 pyrUsers [[0, 1, 2, 3, 5, 4]] [0]).bind (discover pyrOut.polygons pyrUsers 12)).getD ⟨[], [], [], []⟩

/-- The two pyramids of C74: the colour 'A'. -/
def pyrRed : List Nat := (redOf 2 [(1, 0)]).getD []

/-- The two pyramids of C74: the patches and the reversed patches. -/
def pyrTwo : Two :=
  (reverseAll ⟨pyrOut.polygons, pyrUsers, pyrFound.patches, pyrFound.table, pyrOut.faceOf, []⟩ pyrRed (blueOf [0, 1] pyrRed)).getD ⟨[], fun _ => [], [], [], fun _ => none, []⟩

/-- The two pyramids of C74: the environment of the stitching. -/
def pyrStitch : Env Unit := ⟨demoDivided5.m0, 8, demoTables5.reg, pyrIhe, pyrTwo, 6, 12, 2, []⟩

/-- The two pyramids of C74: where the stitching of each patch starts. -/
def pyrStarts : List (Nat × Nat) := (allStarts pyrTwo 12 pyrFound.starts).getD []

/-- The hypotheses are met: two pyramids without bottom that cross each other (C74). The patch outside the source mesh and its reversed version are stitched to the fragments, and so are the patch inside and
its reversed version. -/
theorem C83_demo : ∃ ver orig, SplitOf () demoDivided5.m0 8 12 pyrPolys pyrSplit.1 pyrSplit.2 ver orig ∧
    ∀ ks ∈ [[0, 2], [1, 3]], ∃ s at' half made, stitchColour pyrStitch pyrStarts pyrSplit.1 pyrSplit.2 ks = some s ∧
      StitchedOf () demoDivided5.m0 8 12 2 pyrPolys pyrTwo.polys pyrTwo.patches ks pyrSplit.1 pyrSplit.2 ver orig s.m s.polys s.faces s.cmv at' half made := by
  obtain ⟨pieces, Q, -, -, -⟩ := C82_demo
  have nF : demoCone.numFaces = 3 := by decide +kernel
  have nV : demoCone.numVertices = 4 := by decide +kernel
  have nV' : demoSoup5.ps.numVertices = 8 := by decide +kernel
  have nF' : demoSoup5.ps.numFaces = 6 := by decide +kernel
  obtain ⟨o, U, r, e1, e2, e3, H⟩ := C83_stitched_partial Q keeping_ok (by decide +kernel) [8, 9, 10, 11, 12, 13] (by decide +kernel) (by
      intro v
      have e : demoCut5.cutEdges.map (endsOf demoCut5.m0) = [(11, 8), (11, 9), (12, 9), (12, 10), (13, 8), (13, 10)] := by decide +kernel
      have : (∃ e ∈ demoCut5.cutEdges, (endsOf demoCut5.m0 e).1 = v ∨ (endsOf demoCut5.m0 e).2 = v) ↔ ∃ x ∈ demoCut5.cutEdges.map (endsOf demoCut5.m0), x.1 = v ∨ x.2 = v := by
        simp only [List.mem_map, exists_exists_and_eq_and]
      rw [this, e]
      simp only [List.mem_cons, List.not_mem_nil, or_false, exists_eq_or_imp, exists_eq_left]
      omega)
  rw [nF, nV', nF'] at e1
  have eo : pyrOut = o := by unfold pyrOut; rw [e1]; rfl
  subst eo
  have eU : pyrUsers = U := by unfold pyrUsers; rw [e2]; rfl
  subst eU
  have cnt : pyrOut.smCount = 6 := by decide +kernel
  have tot : pyrOut.polygons.length = 12 := by decide +kernel
  have nE : 2 * demoCut5.m0.nE = 12 := by decide +kernel
  have er : r.seqs = [[0, 1, 2, 3, 5, 4]] := by
    have : (paths (endsOf demoCut5.m0) [8, 9, 10, 11, 12, 13] demoCut5.cutEdges).map (fun r => r.seqs) = some [[0, 1, 2, 3, 5, 4]] := by decide +kernel
    rw [e3, Option.map_some, Option.some.injEq] at this
    exact this
  rw [cnt, nE, er, nV, nF, nV', tot] at H
  have hstart : ∀ p ∈ pyrPolys, HasStart demoDivided5.m0 8 p := by
    have : ∀ p ∈ pyrPolys, (∃ h ∈ p, src demoDivided5.m0 h < 8 ∧ demoDivided5.m0.target h < 8) ∨
        ∃ h ∈ p, demoDivided5.m0.target h < 8 ∧ ∀ g ∈ p, demoDivided5.m0.target g < 8 → g = h := by decide +kernel
    exact this
  have epoly : pyrPolys = pyrOut.polygons.take 6 := by unfold pyrPolys; rw [cnt]
  rw [← epoly] at H
  obtain ⟨m1, polys1, ver, orig, ihe, h1, V, h2, H⟩ := H hstart [8, 9, 10, 11, 12, 13] _ (by
    intro v h1 h2
    rw [show demoDivided5.m0.nV = 14 by decide +kernel] at h2
    simp only [List.mem_cons, List.not_mem_nil, or_false]; omega) (List.Perm.refl _)
  have em : pyrSplit = (m1, polys1) := by unfold pyrSplit; rw [h1]; rfl
  have ei : pyrIhe = ihe := by unfold pyrIhe; rw [h2]; rfl
  subst ei
  refine ⟨ver, orig, by rw [em]; exact V, ?_⟩
  obtain ⟨pool, s, adj, g1, g2, g3, PS, H⟩ := H [⟨false, true, true⟩] ⟨true, true, true, true, true, true⟩ rfl (by decide)
  have hh : makingHoles [⟨false, true, true⟩] = [0] := by decide
  rw [hh] at g1
  have c1 : (seeds pyrOut.polygons 6 pyrUsers [[0, 1, 2, 3, 5, 4]] [0]).bind (fun p => (discover pyrOut.polygons pyrUsers 12 p).map (fun s => (s.patches, neighbours s.table p))) =
      some ([[6, 9, 10], [7, 8, 11]], some [(1, 0)]) := by decide +kernel
  rw [g1, Option.bind_some, g2, Option.map_some, Option.some.injEq, Prod.mk.injEq, g3, Option.some.injEq] at c1
  obtain ⟨c1, rfl⟩ := c1
  have es : pyrFound = s := by unfold pyrFound; rw [g1, Option.bind_some, g2]; rfl
  subst es
  obtain ⟨red, two, all, k1, CO, k2, -, k3, K⟩ := H pyrBase [0, 1] pyr_two_sided pyr_connected ⟨by decide, by
    intro k
    simp only [List.mem_cons, List.not_mem_nil, or_false, exists_eq_left]
    omega⟩
  have np : pyrFound.patches.length = 2 := by rw [c1]; rfl
  rw [np] at k1 K
  have ered : pyrRed = red := by unfold pyrRed; rw [k1]; rfl
  subst ered
  have etwo : pyrTwo = two := by unfold pyrTwo; rw [k2]; rfl
  subst etwo
  have eall : pyrStarts = all := by unfold pyrStarts; rw [k3]; rfl
  subst eall
  have hm : merged 2 pyrRed (blueOf [0, 1] pyrRed) = [(true, [0, 2]), (false, [1, 3])] := by decide +kernel
  rw [hm] at K
  rw [em]
  intro ks hks
  have : ∃ x ∈ [(true, [0, 2]), (false, [1, 3])], x.2 = ks := by
    simp only [List.mem_cons, List.not_mem_nil, or_false] at hks
    rcases hks with rfl | rfl
    · exact ⟨_, List.mem_cons_self, rfl⟩
    · exact ⟨_, List.mem_cons_of_mem _ List.mem_cons_self, rfl⟩
  obtain ⟨x, hx, rfl⟩ := this
  exact K x hx

/-- DEFECT. The vertex map of a sealed fragment is incomplete: the table of the vertices that stand for vertices of the cut mesh (`m1_to_m0_cm_ovtx_colored`) is filled at the very end of the loop over the
halfedges of a polygon (kernel.cpp:10440-10463), after the `continue`s for halfedges without another polygon. So a vertex of a reversed patch gets no entry if the halfedges to it that are not on the cut lie on
the border of the cut mesh. In the example of the two pyramids the reversed copies of two of the three bottom corners of the cut mesh are such vertices: the map has the "undefined" value for them, as if they were
intersection points, although they are vertices of the input cut mesh. -/
theorem C83_vertex_map_fails : ∃ (ver orig : Nat → Nat) (s : St Unit) (at' half : Nat → Nat → Nat) (made : List (Nat × Nat)) (h : Nat),
    stitchColour pyrStitch pyrStarts pyrSplit.1 pyrSplit.2 [0, 2] = some s ∧
    StitchedOf () demoDivided5.m0 8 12 2 pyrPolys pyrTwo.polys pyrTwo.patches [0, 2] pyrSplit.1 pyrSplit.2 ver orig s.m s.polys s.faces s.cmv at' half made ∧
    InSheet pyrTwo.polys pyrTwo.patches 2 h ∧ demoDivided5.m0.target h < 8 ∧ 4 ≤ demoDivided5.m0.target h ∧
    vertexOrigin (sealedTables () 0 demoSoup5 demoCone demoDivided5.m0 pyrTwo.faceOf s) (at' 2 (demoDivided5.m0.target h)) = some none := by
  obtain ⟨ver, orig, -, H⟩ := C83_demo
  obtain ⟨s, at', half, made, hs, T⟩ := H [0, 2] List.mem_cons_self
  have key : (stitchColour pyrStitch pyrStarts pyrSplit.1 pyrSplit.2 [0, 2]).map (fun s => s.cmv) = some [(5, 5), (20, 6)] := by decide +kernel
  rw [hs, Option.map_some, Option.some.injEq] at key
  have hsheet : ∀ v ∈ [5, 7], ∃ h, InSheet pyrTwo.polys pyrTwo.patches 2 h ∧ demoDivided5.m0.target h = v := by
    intro v hv
    have : ∃ j ∈ (pyrTwo.patches.getD 2 []), ∃ h ∈ pyrTwo.polys.getD j [], demoDivided5.m0.target h = v := by
      revert v
      decide +kernel
    obtain ⟨j, hj, h, hh, e⟩ := this
    refine ⟨h, ⟨pyrTwo.patches.getD 2 [], j, pyrTwo.polys.getD j [], ?_, hj, ?_, hh⟩, e⟩
    · cases hc : pyrTwo.patches[2]? with
      | none => rw [List.getD_eq_getElem?_getD, hc] at hj; cases hj
      | some l => rw [List.getD_eq_getElem?_getD, hc]; rfl
    · cases hc : pyrTwo.polys[j]? with
      | none => rw [List.getD_eq_getElem?_getD, hc] at hh; cases hh
      | some l => rw [List.getD_eq_getElem?_getD, hc]; rfl
  obtain ⟨a, ha, ea⟩ := hsheet 5 (by simp)
  obtain ⟨b, hb, eb⟩ := hsheet 7 (by simp)
  have n1 : pyrSplit.1.nV = 20 := by decide +kernel
  have ca := T.copies 2 (by simp) (by omega) a ha (by omega)
  have cb := T.copies 2 (by simp) (by omega) b hb (by omega)
  rw [n1] at ca cb
  have ne : at' 2 (demoDivided5.m0.target a) ≠ at' 2 (demoDivided5.m0.target b) := by
    intro h
    have := (cb.2 2 (by simp) a ha h).2
    omega
  have und : ∀ v, 20 < v → vertexOrigin (sealedTables () 0 demoSoup5 demoCone demoDivided5.m0 pyrTwo.faceOf s) v = some none := by
    intro v hv
    have l1 : (sealedTables () 0 demoSoup5 demoCone demoDivided5.m0 pyrTwo.faceOf s).m1sm.length = (copyM0 () 0 demoDivided5.m0).2.length := List.length_map _
    have l2 : (sealedTables () 0 demoSoup5 demoCone demoDivided5.m0 pyrTwo.faceOf s).m0ps.length = (copyVertices () demoSoup5.ps).2.length := rfl
    have l3 : (sealedTables () 0 demoSoup5 demoCone demoDivided5.m0 pyrTwo.faceOf s).m1cm = s.cmv := rfl
    have k1 : (copyM0 () 0 demoDivided5.m0).2.length = 14 := by decide +kernel
    have k2 : (copyVertices () demoSoup5.ps).2.length = 8 := by decide +kernel
    have k3 : toM0 (sealedTables () 0 demoSoup5 demoCone demoDivided5.m0 pyrTwo.faceOf s) v = v := by
      unfold toM0
      rw [l1, k1, l3, key]
      simp only
      rw [if_neg (by omega)]
      have d1 : ¬((5 : Nat) = v) := by omega
      have d2 : ¬((20 : Nat) = v) := by omega
      simp [d1, d2]
    unfold vertexOrigin
    simp only
    rw [k3, l2, k2, if_neg (by omega)]
  by_cases h20 : at' 2 (demoDivided5.m0.target a) = 20
  · refine ⟨ver, orig, s, at', half, made, b, hs, T, hb, by omega, by omega, und _ ?_⟩
    have := cb.1
    omega
  · refine ⟨ver, orig, s, at', half, made, a, hs, T, ha, by omega, by omega, und _ ?_⟩
    have := ca.1
    omega

end demo

end Mcut.Stitch
