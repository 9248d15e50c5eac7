import Verif.Lemmas.C84All
import Verif.Props.C83
import Verif.Lemmas.C84Demo

/-!
# C84: the sealed fragments
-/
namespace Mcut.Stitch
open Mcut.Hmesh Mcut.Extract Mcut.Registry Mcut.CutEdges Mcut.Boundary Mcut.Trace Mcut.Split Mcut.Patches Mcut.CutPaths Mcut.Origin
variable {P : Type} {d : P} {junk : Nat} {sm cs : Mesh P} {threads : Option Nat} {S : Soup P} {R : List (Nat × Nat × P)} {t : Registry.Tables P} {keys : List (Nat × Nat)}
  {csort : List Nat → List Nat} {inside : Nat → Nat → Nat → Bool} {sort : Nat → Nat → List Nat → List Nat} {edges : List Nat} {c : CutEdges.St P} {st : Boundary.St P}
  {pieces : Nat → List Nat} {part : (Nat → Bool) → List Nat → List Nat × List Nat}

/-- At each cut edge, one of the patches has the colour. -/
theorem one_of_two {pats : List (List Nat)} {outside : Nat → Prop} {red blue : List Nat} (CO : ColoursOf pats outside red blue) {x : Bool × List Nat} (hx : x ∈ merged pats.length red blue) :
    ∃ cl off, x.2 = cl ++ oppositesOf (pats.length + off) cl ∧ (∀ i, i < cl.length → (red ++ blue)[off + i]? = cl[i]?) ∧
      (∀ k ∈ cl, ∀ k' ∈ cl, ∀ l l' i i', pats[k]? = some l → pats[k']? = some l' → i ∈ l → i' ∈ l' → (outside i ↔ outside i')) ∧
      ∀ k k' l l' i i', pats[k]? = some l → pats[k']? = some l' → i ∈ l → i' ∈ l' → ¬(outside i ↔ outside i') → k ∈ cl ∨ k' ∈ cl := by
  have side := one_side CO hx
  have nr : ∀ k ∈ blue, k ∉ red := fun k hk h => (List.nodup_append.1 CO.nodup).2.2 k h k hk rfl
  have main : ∀ k k' l l' i i', pats[k]? = some l → pats[k']? = some l' → i ∈ l → i' ∈ l' → ¬(outside i ↔ outside i') → (k ∈ red ∨ k' ∈ red) ∧ (k ∈ blue ∨ k' ∈ blue) := by
    intro k k' l l' i i' h1 h2 h3 h4 h5
    have := CO.same k k' l l' i i' h1 h2 h3 h4
    have a1 := (CO.all k).2 (List.getElem?_eq_some_iff.1 h1).1
    have a2 := (CO.all k').2 (List.getElem?_eq_some_iff.1 h2).1
    rw [List.mem_append] at a1 a2
    have n1 := nr k
    have n2 := nr k'
    by_cases r1 : k ∈ red <;> by_cases r2 : k' ∈ red
    · exact absurd (this.1 ⟨fun _ => r2, fun _ => r1⟩) h5
    · exact ⟨.inl r1, .inr (a2.resolve_left r2)⟩
    · exact ⟨.inr r2, .inl (a1.resolve_left r1)⟩
    · exact absurd (this.1 ⟨fun h => absurd h r1, fun h => absurd h r2⟩) h5
  unfold merged at hx
  rcases List.mem_cons.1 hx with rfl | hx
  · refine ⟨red, 0, rfl, ?_, ?_, fun k k' l l' i i' h1 h2 h3 h4 h5 => (main k k' l l' i i' h1 h2 h3 h4 h5).1⟩
    · intro i hi
      rw [Nat.zero_add, List.getElem?_append_left hi]
    · intro k hk k' hk' l l' i i' h1 h2 h3 h4
      exact (CO.same k k' l l' i i' h1 h2 h3 h4).1 ⟨fun _ => hk', fun _ => hk⟩
  · rw [List.mem_singleton] at hx
    subst hx
    refine ⟨blue, red.length, rfl, ?_, ?_, fun k k' l l' i i' h1 h2 h3 h4 h5 => (main k k' l l' i i' h1 h2 h3 h4 h5).2⟩
    · intro i hi
      rw [List.getElem?_append_right (by omega), show red.length + i - red.length = i by omega]
    · intro k hk k' hk' l l' i i' h1 h2 h3 h4
      exact (CO.same k k' l l' i i' h1 h2 h3 h4).1 ⟨fun h => absurd h (nr k hk), fun h => absurd h (nr k' hk')⟩

/-- **C84.** For valid input meshes in general position, cut cleanly, with cut paths that all make holes, and a cut mesh whose polygons hang together and lie on two sides of the source mesh (the conditions of
C83): the sealed fragments are made without exception (when there are recorded polygons on both sides, provided each fragment has one), for each of the two colours of patches, and the result is the
concatenation of those of the colours that are wanted. For each colour there is exactly one sealed fragment for each group of connected polygons, if fragments at its location are wanted, and no other: a group consists of
whole fragments of the source mesh (at least one) and whole patches, and with a polygon at a cut edge it contains the patch that closes it. Each is a valid mesh, a copy of its polygons: each of its faces
is where a polygon of the source mesh or of the cut mesh was (with the opposite orientation, if it belongs to a reversed patch). Its seam vertices are the intersection points, its face map names the input faces, and what its
vertex map names are the input vertices in the same places. If both input meshes are watertight, every sealed fragment is watertight. -/
theorem C84_sealed_partial (Q : Setting d junk sm cs threads S R t keys csort inside sort edges c st pieces) (hp : IsPartition part)
    (hne : c.cutEdges ≠ []) (order : List Nat) (ond : order.Nodup) (horder : ∀ v, v ∈ order ↔ ∃ e ∈ c.cutEdges, (endsOf c.m0 e).1 = v ∨ (endsOf c.m0 e).2 = v) :
    ∃ o U r, sequential S.ps st sm.numFaces S.ps.numVertices t.reg part (List.range S.ps.numFaces) = some o ∧ users st.m0.numHalfedges o.polygons = some U ∧
      paths (endsOf c.m0) order c.cutEdges = some r ∧
      ((∀ p ∈ o.polygons.take o.smCount, HasStart st.m0 S.ps.numVertices p) → ∀ points vorder : List Nat, (∀ v, S.ps.numVertices ≤ v → v < st.m0.nV → v ∈ points) →
        vorder.Perm (keysOf st.m0 sm.numVertices S.ps.numVertices U st.incoming points) →
        ∃ m1 polys1 ver orig ihe, split d (envOf S.ps sm.numVertices sm.numFaces S.ps.numVertices (2 * c.m0.nE) t.reg st.m0 st.incoming U o) st.m0 vorder = some (m1, polys1) ∧
          SplitOf d st.m0 S.ps.numVertices (2 * c.m0.nE) (o.polygons.take o.smCount) m1 polys1 ver orig ∧
          iheOf d (envOf S.ps sm.numVertices sm.numFaces S.ps.numVertices (2 * c.m0.nE) t.reg st.m0 st.incoming U o) st.m0 vorder = some ihe ∧
          ∀ (kinds : List Kind) (wish : Wishes), kinds.length = r.seqs.length → proceeds (makingHoles kinds) r.seqs wish = true →
            ∃ pool s adj, seeds o.polygons o.smCount U r.seqs (makingHoles kinds) = some pool ∧ discover o.polygons U (2 * c.m0.nE) pool = some s ∧ neighbours s.table pool = some adj ∧
              PatchesOf o.polygons o.smCount (2 * c.m0.nE) s.patches ∧
              ∀ (outside : Nat → Prop) (names : List Nat), TwoSided o.polygons o.smCount (2 * c.m0.nE) outside → EdgeConnected o.polygons o.smCount (2 * c.m0.nE) → KeysOf adj names →
                ∃ red two all, redOf s.patches.length adj = some red ∧ ColoursOf s.patches outside red (blueOf names red) ∧
                  reverseAll ⟨o.polygons, U, s.patches, s.table, o.faceOf, []⟩ red (blueOf names red) = some two ∧
                  WithReversed o.polygons s.patches (red ++ blueOf names red) two.polys two.patches ∧ allStarts two o.polygons.length s.starts = some all ∧
                  ∀ (below above : List Nat) (w : FragOptions),
                    (below ≠ [] → above ≠ [] → ∀ f, f < o.smCount → ∃ g, g < o.smCount ∧
                      SameFragment st.m0 S.ps.numVertices (2 * c.m0.nE) (o.polygons.take o.smCount) f g ∧ (g ∈ below ∨ g ∈ above)) →
                    (∀ n, threads = some n → ∀ x ∈ merged s.patches.length red (blueOf names red), o.smCount + (x.2.flatMap (fun k => two.patches.getD k [])).length + 1024 ≤ 2 ^ 32) →
                    ∃ lists, List.Forall₂ (fun x l => ∃ sS at' half made groups,
                        stitchColour ⟨st.m0, S.ps.numVertices, t.reg, ihe, two, o.smCount, o.polygons.length, s.patches.length, []⟩ all m1 polys1 x.2 = some sS ∧
                        StitchedOf d st.m0 S.ps.numVertices (2 * c.m0.nE) s.patches.length (o.polygons.take o.smCount) two.polys two.patches x.2 m1 polys1 ver orig sS.m sS.polys sS.faces sS.cmv at' half made ∧
                        sealedList d sS (sealedArgs m1 S.ps.numVertices (sealedTables d junk S sm st.m0 two.faceOf sS) below above w) threads = some l ∧
                        SealedListOf d st.m0 S.ps.numVertices (2 * c.m0.nE) m1.nV s.patches.length o.smCount o.polygons o.faceOf two.polys two.patches x.2 at' made sS.m sS.polys
                          (sealedArgs m1 S.ps.numVertices (sealedTables d junk S sm st.m0 two.faceOf sS) below above w) w groups l ∧
                        (sm.isClosed = true → cs.isClosed = true → ∀ y ∈ l, y.1.isClosed = true))
                      (merged s.patches.length red (blueOf names red)) lists ∧
                    ∀ meaning : Bool → Place,
                      sealedAll d junk S sm ⟨st.m0, S.ps.numVertices, t.reg, ihe, two, o.smCount, o.polygons.length, s.patches.length, []⟩ s.starts m1 polys1 below above w wish threads meaning
                          (merged s.patches.length red (blueOf names red)) =
                        some (((merged s.patches.length red (blueOf names red)).zip lists).flatMap (fun y => if sealedAt wish (meaning y.1.1) then y.2.map (fun z => (meaning y.1.1, z)) else []))) := by
  obtain ⟨o, U, poly, e, hU, C, cutOne, simple⟩ := facts_in Q hp
  obtain ⟨r, hr, H⟩ := colours_in C hne order ond horder
  have pos : 0 < c.m0.nE := by
    obtain ⟨x, hx⟩ := List.exists_mem_of_ne_nil _ hne
    have := (C.all x).1 hx
    omega
  have M := Q.merge
  have hnF := M.numF
  obtain ⟨nl, one⟩ := C78_no_loose (C78_soup junk Q.sourceFaces Q.source Q.cutMesh Q.cutValid threads Q.sizes S Q.merged)
  have FL := C.F.flatOf nl (own_of M Q.sourceValid)
  have D0 := Q.divided
  have I0 : Intact d st.m0 := ⟨D0.valid, D0.same.2.1, List.eq_nil_iff_forall_not_mem.2 (fun f hf => by have := (reachable_wf D0.valid).fRem_lt f hf; rw [D0.same.2.2.2] at this; omega)⟩
  have T0 := C.F.traced cutOne simple
  have hle : o.smCount ≤ o.polygons.length := by
    rw [C.F.L.polygons, C.F.L.smCount]
    exact (List.Sublist.flatMap (List.filter_sublist) _).length_le
  have hsm : 0 < o.smCount := by
    obtain ⟨p, hp', -⟩ := C.F.cut_source (h := 0) pos
    have := List.length_pos_of_mem hp'
    rw [List.length_take] at this
    omega
  refine ⟨o, U, r, e, hU, hr, fun hS points vorder hpts hperm => ?_⟩
  obtain ⟨m1, polys1, ver, orig, ihe, h1, V, h2, hihe, single⟩ := halves_of C cutOne simple pos hS hpts hperm
  refine ⟨m1, polys1, ver, orig, ihe, h1, V, h2, fun kinds wish hlen hpr => ?_⟩
  obtain ⟨pool, s, adj, g1, g2, PS, TS, SS, g3, H⟩ := H kinds wish hlen hpr
  refine ⟨pool, s, adj, g1, g2, g3, PS, fun outside names tw con hn => ?_⟩
  obtain ⟨red, two, news, all, k1, CO, k2, D, k3⟩ := H outside names tw con hn
  refine ⟨red, two, all, k1, CO, k2, D.withReversed, k3, fun below above w hrec hsz => ?_⟩
  have T1 := V.traced T0
  have each : ∀ x ∈ merged s.patches.length red (blueOf names red), ∃ l, ∃ sS at' half made groups,
      stitchColour ⟨st.m0, S.ps.numVertices, t.reg, ihe, two, o.smCount, o.polygons.length, s.patches.length, []⟩ all m1 polys1 x.2 = some sS ∧
      StitchedOf d st.m0 S.ps.numVertices (2 * c.m0.nE) s.patches.length (o.polygons.take o.smCount) two.polys two.patches x.2 m1 polys1 ver orig sS.m sS.polys sS.faces sS.cmv at' half made ∧
      sealedList d sS (sealedArgs m1 S.ps.numVertices (sealedTables d junk S sm st.m0 two.faceOf sS) below above w) threads = some l ∧
      SealedListOf d st.m0 S.ps.numVertices (2 * c.m0.nE) m1.nV s.patches.length o.smCount o.polygons o.faceOf two.polys two.patches x.2 at' made sS.m sS.polys
        (sealedArgs m1 S.ps.numVertices (sealedTables d junk S sm st.m0 two.faceOf sS) below above w) w groups l ∧
      (sm.isClosed = true → cs.isClosed = true → ∀ y ∈ l, y.1.isClosed = true) := by
    intro x hx
    have hszx := fun n h => hsz n h x hx
    obtain ⟨cl, off, e1, e2, e3, e4⟩ := one_of_two CO hx
    rw [e1] at hszx ⊢
    obtain ⟨sS, at', half, made, q1, T⟩ := C.colour (by have := M.numV; omega) cutOne simple V single hihe PS TS SS tw D CO.nodup (fun k hk => (CO.all k).1 hk) k3 e2 e3
    have K := kinds_of D CO.nodup (fun k hk => (CO.all k).1 hk) e2
    have X := C.sheets PS D K tw e4
    have FT := C.faceTable PS D K hle
    have VT := T.vertexTable Q.source Q.cutMesh Q.cutValid Q.sizes Q.merged I0 M.numV FL.le V two.faceOf
    have lt : ∀ f j, (f, j) ∈ sS.faces → ∀ g, two.faceOf j = some g → g < sm.numFaces + cs.numFaces := by
      intro f j hfj g hg
      have key : ∀ i, ∀ g, o.faceOf i = some g → g < sm.numFaces + cs.numFaces := by
        intro i g hg
        obtain ⟨p, hp'⟩ := C.F.L.poly_of hg
        by_cases hi : i < o.smCount
        · obtain ⟨f', f1, f2⟩ := C.F.face_lt hp' hi
          rw [hg] at f1; obtain rfl := Option.some.inj f1
          omega
        · obtain ⟨f', f1, -, f3, -⟩ := C.face (by omega) hp'
          rw [hg] at f1; obtain rfl := Option.some.inj f1
          omega
      rcases (T.faces f j).1 hfj with ⟨a1, rfl⟩ | ⟨a, y, a1, a2, rfl⟩
      · rw [V.polygons, List.length_map, List.length_take] at a1
        rw [(FT.1 j (by omega)).2] at hg
        exact key _ _ hg
      · obtain ⟨hk, l, hl, hj⟩ := T.made_of (k := y.1) (j := y.2) (List.mem_of_getElem? a2) X
        obtain ⟨i, p, -, -, -, t2, -⟩ := FT.2 _ hk l hl _ hj
        rw [t2] at hg
        exact key _ _ hg
    have hlenS : sS.polys.length = o.smCount + ((cl ++ oppositesOf (s.patches.length + off) cl).flatMap (fun k => two.patches.getD k [])).length := by
      obtain ⟨news', n1, n2⟩ := T.polygons
      have a1 : polys1.length = o.smCount := by rw [V.polygons, List.length_map, List.length_take]; omega
      have a2 : ∀ l : List Nat, (l.flatMap (fun k => (two.patches.getD k []).map (fun j => (k, j)))).length = (l.flatMap (fun k => two.patches.getD k [])).length := by
        intro l
        simp only [List.length_flatMap, List.length_map]
      rw [n1, List.length_append, ← n2.length_eq, T.all.length_eq, a1, a2]
    obtain ⟨frs, groups, f1, f2⟩ := sealed_extract (faceOf2 := two.faceOf) D0.valid V T X FL T1 hle hsm VT FT (fun f j hfj hj => T.faceOrigin Q.source Q.cutMesh Q.cutValid Q.sizes Q.merged (lt f j hfj) hfj hj) (by omega) below above w threads (fun n h => ⟨(Q.sizes n h).1, by rw [hlenS]; exact hszx n h⟩) hrec sS rfl rfl
    refine ⟨frs, sS, at', half, made, groups, q1, T, f1, f2, fun c1 c2 => ?_⟩
    refine sealed_closed D0.valid V T X T1 (by omega) (fun h hh hc => ?_) (fun k hk h hh hc => ?_) f2
    · exact C.source_closed (merge_closed_source M Q.source one c1) hh hc
    · exact C.sheets_closed PS D K (merge_closed_cut M Q.cutMesh one c2) hk hh hc
  have build : ∀ L : List (Bool × List Nat), (∀ x ∈ L, x ∈ merged s.patches.length red (blueOf names red)) → ∃ lists, List.Forall₂ (fun x l => ∃ sS at' half made groups,
      stitchColour ⟨st.m0, S.ps.numVertices, t.reg, ihe, two, o.smCount, o.polygons.length, s.patches.length, []⟩ all m1 polys1 x.2 = some sS ∧
      StitchedOf d st.m0 S.ps.numVertices (2 * c.m0.nE) s.patches.length (o.polygons.take o.smCount) two.polys two.patches x.2 m1 polys1 ver orig sS.m sS.polys sS.faces sS.cmv at' half made ∧
      sealedList d sS (sealedArgs m1 S.ps.numVertices (sealedTables d junk S sm st.m0 two.faceOf sS) below above w) threads = some l ∧
      SealedListOf d st.m0 S.ps.numVertices (2 * c.m0.nE) m1.nV s.patches.length o.smCount o.polygons o.faceOf two.polys two.patches x.2 at' made sS.m sS.polys
        (sealedArgs m1 S.ps.numVertices (sealedTables d junk S sm st.m0 two.faceOf sS) below above w) w groups l ∧
      (sm.isClosed = true → cs.isClosed = true → ∀ y ∈ l, y.1.isClosed = true)) L lists := by
    intro L
    induction L with
    | nil => exact fun _ => ⟨[], .nil⟩
    | cons x L ih =>
      intro h
      obtain ⟨l, hl⟩ := each x (h x List.mem_cons_self)
      obtain ⟨ls, hls⟩ := ih (fun y hy => h y (List.mem_cons_of_mem _ hy))
      exact ⟨l :: ls, .cons hl hls⟩
  obtain ⟨lists, hlists⟩ := build _ (fun x h => h)
  refine ⟨lists, hlists, fun meaning => ?_⟩
  exact sealedAll_eq (E := ⟨st.m0, S.ps.numVertices, t.reg, ihe, two, o.smCount, o.polygons.length, s.patches.length, []⟩) wish meaning k3 (hlists.imp (fun x l ⟨sS, _, _, _, _, a, _, b, _⟩ => ⟨sS, a, b⟩))

section demo
open Mcut.Floating Mcut.Pairs

/-- The two tetrahedra: the polygons that are traced; the first seven are in the source mesh. -/
def tetraOut : Out := (sequential tetraSoup.ps tetraDivided 4 8 tetraTables.reg keeping (List.range 8)).getD Out.empty

def tetraUsers : Nat → List Nat := (users tetraDivided.m0.numHalfedges tetraOut.polygons).getD (fun _ => [])

def tetraIhe : Nat → Option Nat :=
  (iheOf () (envOf tetraSoup.ps 4 4 8 12 tetraTables.reg tetraDivided.m0 tetraDivided.incoming tetraUsers tetraOut) tetraDivided.m0
    (keysOf tetraDivided.m0 4 8 tetraUsers tetraDivided.incoming [8, 9, 10, 11, 12, 13])).getD (fun _ => none)

def tetraSplit : Mesh Unit × List (List Nat) :=
  (split () (envOf tetraSoup.ps 4 4 8 12 tetraTables.reg tetraDivided.m0 tetraDivided.incoming tetraUsers tetraOut) tetraDivided.m0
    (keysOf tetraDivided.m0 4 8 tetraUsers tetraDivided.incoming [8, 9, 10, 11, 12, 13])).getD (Mesh.empty (), [])

def tetraFound : Found :=
  ((seeds tetraOut.polygons 7 tetraUsers [[0, 1, 2, 3, 5, 4]] [0]).bind (discover tetraOut.polygons tetraUsers 12)).getD ⟨[], [], [], []⟩

def tetraTwo : Two :=
  (reverseAll ⟨tetraOut.polygons, tetraUsers, tetraFound.patches, tetraFound.table, tetraOut.faceOf, []⟩ [0] [1]).getD ⟨[], fun _ => [], [], [], fun _ => none, []⟩

def tetraStitch : Env Unit := ⟨tetraDivided.m0, 8, tetraTables.reg, tetraIhe, tetraTwo, 7, 14, 2, []⟩

/-- The polygons of the second tetrahedron that are at its base: they are outside the first one. -/
def tetraBase (i : Nat) : Prop := i = 7 ∨ i = 10 ∨ i = 11 ∨ i = 13

instance : DecidablePred tetraBase := fun i => by unfold tetraBase; infer_instance

theorem tetra_two_sided : TwoSided tetraOut.polygons 7 12 tetraBase := by
  have len : tetraOut.polygons.length = 14 := by decide +kernel
  have key : ∀ i ∈ List.range 14, ∀ j ∈ List.range 14, ∀ x ∈ (tetraOut.polygons[i]?).getD [], opposite x ∈ (tetraOut.polygons[j]?).getD [] → 7 ≤ i → 7 ≤ j →
      (12 ≤ x → (tetraBase i ↔ tetraBase j)) ∧ (x < 12 → (tetraBase i ↔ ¬ tetraBase j)) := by decide +kernel
  have go : ∀ i j x, InCut tetraOut.polygons 7 i x → InCut tetraOut.polygons 7 j (opposite x) → (12 ≤ x → (tetraBase i ↔ tetraBase j)) ∧ (x < 12 → (tetraBase i ↔ ¬ tetraBase j)) := by
    rintro i j x ⟨h1, p, h2, h3⟩ ⟨h4, q, h5, h6⟩
    refine key i ?_ j ?_ x (by rw [h2]; exact h3) (by rw [h5]; exact h6) h1 h4
    · rw [List.mem_range, ← len]; exact (List.getElem?_eq_some_iff.1 h2).1
    · rw [List.mem_range, ← len]; exact (List.getElem?_eq_some_iff.1 h5).1
  constructor
  · rintro i j ⟨x, h1, h2, h3⟩; exact (go i j x h1 h2).1 h3
  · rintro i j ⟨x, h1, h2, h3⟩; exact (go i j x h1 h2).2 h3

theorem tetra_connected : EdgeConnected tetraOut.polygons 7 12 := by
  have len : tetraOut.polygons.length = 14 := by decide +kernel
  have beside : ∀ i j, (∃ x ∈ (tetraOut.polygons[i]?).getD [], opposite x ∈ (tetraOut.polygons[j]?).getD [] ∧ 7 ≤ i ∧ 7 ≤ j) →
      Relation.EqvGen (fun a b => Beside tetraOut.polygons 7 12 a b ∨ Across tetraOut.polygons 7 12 a b) i j := by
    rintro i j ⟨x, h1, h2, h3, h4⟩
    have inc : ∀ i x, 7 ≤ i → x ∈ (tetraOut.polygons[i]?).getD [] → InCut tetraOut.polygons 7 i x := by
      intro i x hi hx
      cases hp : tetraOut.polygons[i]? with
      | none => rw [hp] at hx; cases hx
      | some p => rw [hp] at hx; exact ⟨hi, p, hp, hx⟩
    apply Relation.EqvGen.rel
    by_cases hx : x < 12
    · exact .inr ⟨x, inc i x h3 h1, inc j _ h4 h2, hx⟩
    · exact .inl ⟨x, inc i x h3 h1, inc j _ h4 h2, by omega⟩
  have all : ∀ i, 7 ≤ i → i < 14 → Relation.EqvGen (fun a b => Beside tetraOut.polygons 7 12 a b ∨ Across tetraOut.polygons 7 12 a b) 7 i := by
    have e1 := beside 7 8 (by decide +kernel)
    have e2 := beside 7 10 (by decide +kernel)
    have e3 := beside 7 11 (by decide +kernel)
    have e4 := beside 10 9 (by decide +kernel)
    have e5 := beside 11 12 (by decide +kernel)
    have e6 := beside 7 13 (by decide +kernel)
    intro i h1 h2
    have : i = 7 ∨ i = 8 ∨ i = 9 ∨ i = 10 ∨ i = 11 ∨ i = 12 ∨ i = 13 := by omega
    rcases this with rfl | rfl | rfl | rfl | rfl | rfl | rfl
    · exact .refl _
    · exact e1
    · exact .trans _ _ _ e2 e4
    · exact e2
    · exact e3
    · exact .trans _ _ _ e3 e5
    · exact e6
  rintro i j ⟨x, ⟨h1, p, h2, -⟩, -⟩ ⟨y, ⟨h3, q, h4, -⟩, -⟩
  have hi : i < 14 := by rw [← len]; exact (List.getElem?_eq_some_iff.1 h2).1
  have hj : j < 14 := by rw [← len]; exact (List.getElem?_eq_some_iff.1 h4).1
  exact .trans _ _ _ (.symm _ _ (all i h1 hi)) (all j h3 hj)

/-- The hypotheses are met: two tetrahedra, which are watertight and the tips of which pass through each other. The polygons 0, 2 and 5 are the tip of the first one, which is above the cut mesh, the others are
below; sealed fragments are wanted with patches from inside and from outside. For each of the two colours there are sealed fragments, and all are watertight. -/
theorem C84_demo : demoTetra.isClosed = true ∧ ∃ lA lB, lA ≠ [] ∧ lB ≠ [] ∧ (∀ y ∈ lA ++ lB, y.1.isClosed = true) ∧
    ∀ meaning, sealedAll () 0 tetraSoup demoTetra tetraStitch tetraFound.starts tetraSplit.1 tetraSplit.2 [1, 3, 4, 6] [0, 2, 5] ⟨true, ⟨true, true, true⟩, true, true⟩ ⟨true, true, true, true, true, true⟩ none meaning
      [(true, [0, 2]), (false, [1, 3])] = some (lA.map (fun z => (meaning true, z)) ++ lB.map (fun z => (meaning false, z))) := by
  have closed : demoTetra.isClosed = true := by decide +kernel
  refine ⟨closed, ?_⟩
  obtain ⟨pieces, Q⟩ := tetra_setting
  have nF : demoTetra.numFaces = 4 := by decide +kernel
  have nV : demoTetra.numVertices = 4 := by decide +kernel
  have nV' : tetraSoup.ps.numVertices = 8 := by decide +kernel
  have nF' : tetraSoup.ps.numFaces = 8 := by decide +kernel
  obtain ⟨o, U, r, e1, e2, e3, H⟩ := C84_sealed_partial Q keeping_ok (by decide +kernel) [8, 9, 10, 11, 12, 13] (by decide +kernel) (by
      intro v
      have e : tetraCut.cutEdges.map (endsOf tetraCut.m0) = [(11, 8), (11, 9), (12, 9), (12, 10), (13, 8), (13, 10)] := by decide +kernel
      have : (∃ e ∈ tetraCut.cutEdges, (endsOf tetraCut.m0 e).1 = v ∨ (endsOf tetraCut.m0 e).2 = v) ↔ ∃ x ∈ tetraCut.cutEdges.map (endsOf tetraCut.m0), x.1 = v ∨ x.2 = v := by
        simp only [List.mem_map, exists_exists_and_eq_and]
      rw [this, e]
      simp only [List.mem_cons, List.not_mem_nil, or_false, exists_eq_or_imp, exists_eq_left]
      omega)
  rw [nF, nV', nF'] at e1
  have eo : tetraOut = o := by unfold tetraOut; rw [e1]; rfl
  subst eo
  have eU : tetraUsers = U := by unfold tetraUsers; rw [e2]; rfl
  subst eU
  have cnt : tetraOut.smCount = 7 := by decide +kernel
  have tot : tetraOut.polygons.length = 14 := by decide +kernel
  have nE : 2 * tetraCut.m0.nE = 12 := by decide +kernel
  have er : r.seqs = [[0, 1, 2, 3, 5, 4]] := by
    have : (paths (endsOf tetraCut.m0) [8, 9, 10, 11, 12, 13] tetraCut.cutEdges).map (fun r => r.seqs) = some [[0, 1, 2, 3, 5, 4]] := by decide +kernel
    rw [e3, Option.map_some, Option.some.injEq] at this
    exact this
  rw [cnt, nE, er, nV, nF, nV', tot] at H
  have hstart : ∀ p ∈ tetraOut.polygons.take 7, HasStart tetraDivided.m0 8 p := by
    have : ∀ p ∈ tetraOut.polygons.take 7, (∃ h ∈ p, src tetraDivided.m0 h < 8 ∧ tetraDivided.m0.target h < 8) ∨
        ∃ h ∈ p, tetraDivided.m0.target h < 8 ∧ ∀ g ∈ p, tetraDivided.m0.target g < 8 → g = h := by decide +kernel
    exact this
  obtain ⟨m1, polys1, ver, orig, ihe, h1, V, h2, H⟩ := H hstart [8, 9, 10, 11, 12, 13] _ (by
    intro v h1 h2
    rw [show tetraDivided.m0.nV = 14 by decide +kernel] at h2
    simp only [List.mem_cons, List.not_mem_nil, or_false]; omega) (List.Perm.refl _)
  have em : tetraSplit = (m1, polys1) := by unfold tetraSplit; rw [h1]; rfl
  have ei : tetraIhe = ihe := by unfold tetraIhe; rw [h2]; rfl
  subst ei
  obtain ⟨pool, s, adj, g1, g2, g3, PS, H⟩ := H [⟨false, true, true⟩] ⟨true, true, true, true, true, true⟩ rfl (by decide)
  have hh : makingHoles [⟨false, true, true⟩] = [0] := by decide
  rw [hh] at g1
  have c1 : (seeds tetraOut.polygons 7 tetraUsers [[0, 1, 2, 3, 5, 4]] [0]).bind (fun p => (discover tetraOut.polygons tetraUsers 12 p).map (fun s => (s.patches, neighbours s.table p))) =
      some ([[7, 13, 10, 11], [8, 9, 12]], some [(1, 0)]) := by decide +kernel
  rw [g1, Option.bind_some, g2, Option.map_some, Option.some.injEq, Prod.mk.injEq, g3, Option.some.injEq] at c1
  obtain ⟨c1, rfl⟩ := c1
  have es : tetraFound = s := by unfold tetraFound; rw [g1, Option.bind_some, g2]; rfl
  subst es
  obtain ⟨red, two, all, k1, CO, k2, -, k3, K⟩ := H tetraBase [0, 1] tetra_two_sided tetra_connected ⟨by decide, by
    intro k
    simp only [List.mem_cons, List.not_mem_nil, or_false, exists_eq_left]
    omega⟩
  have np : tetraFound.patches.length = 2 := by rw [c1]; rfl
  rw [np] at k1 K
  have ered : red = [0] := by
    have : redOf 2 [(1, 0)] = some [0] := by decide +kernel
    rw [k1] at this; exact Option.some.inj this
  subst ered
  have eblue : blueOf [0, 1] [0] = [1] := by decide +kernel
  rw [eblue] at k2 K
  have etwo : tetraTwo = two := by unfold tetraTwo; rw [k2]; rfl
  subst etwo
  have hm : merged 2 [0] [1] = [(true, [0, 2]), (false, [1, 3])] := by decide +kernel
  rw [hm] at K
  obtain ⟨lists, L, EQ⟩ := K [1, 3, 4, 6] [0, 2, 5] ⟨true, ⟨true, true, true⟩, true, true⟩ (by
    intro _ _ f hf
    refine ⟨f, hf, .refl _, ?_⟩
    have : f = 0 ∨ f = 1 ∨ f = 2 ∨ f = 3 ∨ f = 4 ∨ f = 5 ∨ f = 6 := by omega
    rcases this with rfl | rfl | rfl | rfl | rfl | rfl | rfl <;> simp) (by intro n h; cases h)
  cases L with
  | cons hA L =>
    cases L with
    | cons hB L =>
      cases L with
      | nil =>
        have ne : ∀ {x : Bool × List Nat} {l : List (Mesh Unit × Info)}, (∃ sS at' half made groups,
            stitchColour ⟨tetraDivided.m0, 8, tetraTables.reg, tetraIhe, tetraTwo, 7, 14, 2, []⟩ all m1 polys1 x.2 = some sS ∧
            StitchedOf () tetraDivided.m0 8 12 2 (tetraOut.polygons.take 7) tetraTwo.polys tetraTwo.patches x.2 m1 polys1 ver orig sS.m sS.polys sS.faces sS.cmv at' half made ∧
            sealedList () sS (sealedArgs m1 8 (sealedTables () 0 tetraSoup demoTetra tetraDivided.m0 tetraTwo.faceOf sS) [1, 3, 4, 6] [0, 2, 5] ⟨true, ⟨true, true, true⟩, true, true⟩) none = some l ∧
            SealedListOf () tetraDivided.m0 8 12 m1.nV 2 7 tetraOut.polygons tetraOut.faceOf tetraTwo.polys tetraTwo.patches x.2 at' made sS.m sS.polys
              (sealedArgs m1 8 (sealedTables () 0 tetraSoup demoTetra tetraDivided.m0 tetraTwo.faceOf sS) [1, 3, 4, 6] [0, 2, 5] ⟨true, ⟨true, true, true⟩, true, true⟩)
              ⟨true, ⟨true, true, true⟩, true, true⟩ groups l ∧
            (demoTetra.isClosed = true → demoTetra.isClosed = true → ∀ y ∈ l, y.1.isClosed = true)) → l ≠ [] := by
          rintro x l ⟨sS, at', half, made, groups, -, T, -, SL, -⟩ rfl
          have hg : groups = [] := by cases SL.each; rfl
          obtain ⟨news', n1, -⟩ := T.polygons
          have a1 : polys1.length = 7 := by rw [V.polygons, List.length_map, List.length_take, tot]; rfl
          have hlt : 0 < sS.polys.length := by rw [n1, List.length_append, a1]; omega
          classical
          obtain ⟨G', hG', -⟩ := SL.all 0 hlt ((List.range sS.polys.length).filter (fun g => decide (Extract.Linked sS.m sS.polys 0 g))) (by
            intro g
            rw [List.mem_filter, List.mem_range, decide_eq_true_iff]) (by
            unfold Wanted
            split
            · trivial
            all_goals rfl)
          rw [hg] at hG'; cases hG'
        refine ⟨_, _, ne hA, ne hB, ?_, fun meaning => ?_⟩
        · obtain ⟨_, _, _, _, _, _, _, _, _, cA⟩ := hA
          obtain ⟨_, _, _, _, _, _, _, _, _, cB⟩ := hB
          intro y hy
          rcases List.mem_append.1 hy with h | h
          · exact cA closed closed y h
          · exact cB closed closed y h
        · have := EQ meaning
          rw [em]
          unfold tetraStitch
          rw [this]
          simp only [List.zip_cons_cons, List.zip_nil_right, List.flatMap_cons, List.flatMap_nil, List.append_nil]
          have w : ∀ p, sealedAt ⟨true, true, true, true, true, true⟩ p = true := by intro p; cases p <;> rfl
          rw [if_pos (w _), if_pos (w _)]

end demo

end Mcut.Stitch
