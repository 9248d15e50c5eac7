import Verif.Lemmas.C81
import Verif.Props.C80

/-!
# C81: the meshes of the patches
-/
namespace Mcut.Patches
open Mcut.Hmesh Mcut.Extract Mcut.Registry Mcut.CutEdges Mcut.Boundary Mcut.Trace Mcut.Split Mcut.CutPaths
variable {P : Type} {d : P} {sort : Nat → Nat → List Nat → List Nat} {edges : List Nat} {c : CutEdges.St P} {st : Boundary.St P} {pieces : Nat → List Nat}

/-- **C81.** In the setting of C80, for valid input meshes the first of which is made of faces: the patches are reversed and saved without exception, for every number of threads. For
each of the two places the output has, if patches are wanted there, exactly the patches with that place, each once as it is and once with the reverse orientation, and nothing else.
Each is a copy of the polygons of the patch — with the corners in the same, or in the reverse, order —, its seam vertices are the copies of the intersection points, and its maps name the
vertices and the faces of the cut mesh (as numbers in the two input meshes together). The place of a patch is "outside" exactly if its polygons are outside, under the condition of C80. -/
theorem C81_patches_partial {sm cs : Mesh P} (junk : Nat) (I : Intact d sm) (FF : FromFaces d sm) (J : Intact d cs) (hvs : Preproc.ValidMesh sm.numVertices (polygons sm))
    (hv : Preproc.ValidMesh cs.numVertices (polygons cs)) (threads : Option Nat) (hs : Sizes sm cs threads) (S : Soup P) (hS : soup junk sm cs threads = some S)
    (R : List (Nat × Nat × P)) (t : Registry.Tables P) (T : Recorded S.ps sm.numFaces S.ps.numVertices R t) (hx : CrossTested S.ps sm.numFaces t.reg) (hnd : t.reg.Nodup)
    (h2 : ∀ k, t.cut k ≠ [] → (t.cut k).length = 2) (keys : List (Nat × Nat)) (hkeys : ∀ k, k ∈ keys ↔ t.cut k ≠ []) (csort : List Nat → List Nat)
    (inside : Nat → Nat → Nat → Bool) (hst : cutEdges S.ps S.ps.numVertices t.reg csort inside t.cut keys (addPoints (copyVertices d S.ps).1 t.pts) = some c)
    (A : Arranges S.ps t.edges sort) (hl : AllEdges S.ps edges) (D : Divided d S.ps S.ps.numVertices t.edges sort edges c st pieces) (common : OneCommonEdge S.ps)
    (clean : ∀ f, f < sm.numFaces + cs.numFaces → CleanFace S.ps t.edges sort c f)
    (part : (Nat → Bool) → List Nat → List Nat × List Nat) (hp : IsPartition part)
    (hne : c.cutEdges ≠ []) (order : List Nat) (ond : order.Nodup) (horder : ∀ v, v ∈ order ↔ ∃ e ∈ c.cutEdges, (endsOf c.m0 e).1 = v ∨ (endsOf c.m0 e).2 = v)
    (falls : Nat → Nat → Nat → Option Bool) (down : Nat → Nat → Prop)
    (hfalls : ∀ h g x, Arrives S.ps st.m0 S.ps.numVertices t.edges sort pieces t.reg h g x → ∃ b, falls g (src st.m0 x) (st.m0.target x) = some b ∧ (b = true ↔ down h g)) :
    ∃ o U r, sequential S.ps st sm.numFaces S.ps.numVertices t.reg part (List.range S.ps.numFaces) = some o ∧ users st.m0.numHalfedges o.polygons = some U ∧
      paths (endsOf c.m0) order c.cutEdges = some r ∧
      ∀ (kinds : List Kind) (w : Wishes), kinds.length = r.seqs.length → proceeds (makingHoles kinds) r.seqs w = true → (∀ n, threads = some n → o.polygons.length + 1024 ≤ 2 ^ 32) →
        ∃ pool s adj E, seeds o.polygons o.smCount U r.seqs (makingHoles kinds) = some pool ∧ discover o.polygons U (2 * c.m0.nE) pool = some s ∧
          PatchesOf o.polygons o.smCount (2 * c.m0.nE) s.patches ∧ neighbours s.table pool = some adj ∧
          exterior S.ps st.m0 sm.numVertices sm.numFaces S.ps.numVertices t.reg falls (pathAt r.vs) (makingHoles kinds) o = some E ∧
          ExteriorOf S.ps st.m0 sm.numFaces S.ps.numVertices t.edges sort pieces t.reg down o E ∧
          ∀ (outside : Nat → Prop) (names : List Nat) (ext : List (Nat × Nat)) (popV popF : Bool), TwoSided o.polygons o.smCount (2 * c.m0.nE) outside →
            EdgeConnected o.polygons o.smCount (2 * c.m0.nE) → KeysOf adj names → ext.Perm E →
            ∃ red f two out placeOf, redOf s.patches.length adj = some red ∧ meaning s.table red (blueOf names red) ext = some f ∧
              reverseAll ⟨o.polygons, U, s.patches, s.table, o.faceOf, []⟩ red (blueOf names red) = some two ∧
              savePatches d st.m0 S.ps.numVertices threads (originsOf d S sm) popV popF w s.patches.length two f (merged s.patches.length red (blueOf names red)) = some out ∧
              SavedAll d st.m0 sm.numVertices sm.numFaces S.ps.numVertices o.polygons o.faceOf popV popF w s.patches placeOf out ∧
              ((E ≠ [] ∧ (∀ i x, EntersAt S.ps st.m0 sm.numFaces S.ps.numVertices t.edges sort pieces t.reg down o i x → outside i)) ∨
                  (E = [] ∧ ∀ l i, s.patches[0]? = some l → i ∈ l → ¬ outside i) →
                ∀ (k : Nat) (l : List Nat) i, s.patches[k]? = some l → i ∈ l → ∃ p, placeOf k = some p ∧ (p = .outside ↔ outside i)) := by
  obtain ⟨S', hS', M, -⟩ := C60_soup junk I J hv threads hs
  rw [hS] at hS'; injection hS' with hS'; subst hS'
  obtain ⟨-, one⟩ := C78_no_loose (C78_soup junk FF I J hv threads hs S hS)
  have cutOne : ∀ f g a b v w, a ∈ c.faceEdges f → b ∈ c.faceEdges g → Joins c.m0 a v w → Joins c.m0 b v w → a = b := by
    obtain ⟨c', e', CG⟩ := C66_edges M hvs hv R t T hx h2 keys hkeys csort inside
    rw [hst] at e'
    obtain rfl : c = c' := Option.some.inj e'
    intro f g a b v w ha hb j1 j2
    exact CG.once a ((CG.faces f a).1 ha).1 b ((CG.faces g b).1 hb).1 v w j1 j2
  obtain ⟨o, U, r, e, hU, hr, H⟩ := C80_places_partial M hvs hv R t T hx hnd h2 keys hkeys csort inside hst A hl D one common clean part hp hne order ond horder falls down hfalls
  obtain ⟨o', U', poly, e', hU', C⟩ := cut_facts M hvs hv R t T hx hnd h2 keys hkeys csort inside hst A hl D one common clean part hp
  rw [e] at e'
  obtain rfl := Option.some.inj e'
  rw [hU] at hU'
  obtain rfl := Option.some.inj hU'
  refine ⟨o, U, r, e, hU, hr, fun kinds w hlen hpr hsz => ?_⟩
  obtain ⟨pool, s, adj, E, h3, h4, PS, h5, -, h6, EX, H⟩ := H kinds w hlen hpr
  refine ⟨pool, s, adj, E, h3, h4, PS, h5, h6, EX, ?_⟩
  intro outside names ext popV popF two con hnames hperm
  obtain ⟨red, f, g1, CO, g2, g3⟩ := H outside names ext two con hnames hperm
  have L := C.F.L
  obtain ⟨tw, out, q1, q2, q3⟩ := saved_of (d := d) (smV := sm.numVertices) (smF := sm.numFaces) (base := S.ps.numVertices) (numF := sm.numFaces + cs.numFaces) (faceOf := o.faceOf) D.valid D.same.2.1
    (origins_of junk I J hv threads hs S hS) (C.sound one cutOne) (fun i p hi hp' h hh => C.low (by rw [M.numV]; omega) hi hp' hh) (by
      intro i hi hlt
      obtain ⟨f, f1, f2, f3, -⟩ := C.face hi (List.getElem?_eq_getElem hlt)
      exact ⟨f, f1, f2, by rw [← M.numF]; exact f3⟩) (by
      intro i hi
      cases hc : o.faceOf i with
      | none => rfl
      | some f =>
        obtain ⟨p, hp'⟩ := L.poly_of hc
        have := (List.getElem?_eq_some_iff.1 hp').1
        omega) (fun l hl' => by
      obtain ⟨a1, a2, -⟩ := PS.whole l hl'
      refine ⟨?_, a1, a2⟩
      intro h0
      obtain ⟨i, hi, -⟩ := PS.cut l hl'
      rw [h0] at hi; cases hi) U s.table CO.nodup CO.all (meaning_ne g2) popV popF w threads (fun n h => ⟨(hs n h).1, hsz n h⟩)
  refine ⟨red, f, tw, out, _, g1, g2, q1, q2, q3, ?_⟩
  intro h k l i hk hi
  obtain ⟨a, a1, a2⟩ := g3 h k l i hk hi
  exact ⟨f a, by simp only [a1, Option.map_some], a2⟩

/-- **C81 (pairs).** Each patch is paired with its reversed version: the reversed patches get the next free numbers, in the order in which the patches are coloured. -/
theorem C81_pairs {s0 : Two} (good : ∀ l ∈ s0.patches, ∀ j ∈ l, ∃ p f, s0.polys[j]? = some p ∧ s0.faceOf j = some f) (free : ∀ j, s0.polys.length ≤ j → s0.faceOf j = none) (h0 : s0.pairs = [])
    (red blue : List Nat) (hlt : ∀ k ∈ red ++ blue, k < s0.patches.length) :
    ∃ s, reverseAll s0 red blue = some s ∧ s.pairs = (red ++ blue).zip (List.range' s0.patches.length (red ++ blue).length) ∧
      ∀ k k', (k, k') ∈ s.pairs → ∃ l l', s0.patches[k]? = some l ∧ s.patches[k']? = some l' ∧
        List.Forall₂ (fun j j' => ∃ p, s0.polys[j]? = some p ∧ s.polys[j']? = some (p.map opposite).reverse) l l' := by
  obtain ⟨s, news, r1, -, r2, r3, r4⟩ := reverseAll_spec good free h0 red blue hlt
  refine ⟨s, r1, r3, ?_⟩
  intro k k' hk
  rw [r3] at hk
  obtain ⟨a, ha, e⟩ := List.getElem_of_mem hk
  rw [List.getElem_zip] at e
  injection e with e1 e2
  rw [List.length_zip, List.length_range', Nat.min_self] at ha
  rw [List.getElem_range', Nat.one_mul] at e2
  have hlen := r4.length_eq
  obtain ⟨l, l1, l2, -⟩ := (List.forall₂_iff_get.1 r4).2 a ha (by omega)
  simp only [List.get_eq_getElem, e1] at l1 l2
  refine ⟨l, news[a]'(by omega), l1, ?_, l2.imp (fun _ _ h => ?_)⟩
  · rw [r2, List.getElem?_append_right (by omega), show k' - s0.patches.length = a by omega, List.getElem?_eq_getElem]
  · obtain ⟨p, -, h1, -, h2, -⟩ := h
    exact ⟨p, h1, h2⟩

/-! ## Example: two pyramids without bases, of `C74_demo` -/

open Mcut.Floating Mcut.Pairs

/-- Two pyramids without their bases, which cross each other: everything that `C81_patches_partial` asks for holds. There are four meshes: the base of the second pyramid outside, its apex
inside, each as it is and reversed. -/
theorem C81_demo : ∃ (s : Found) (red : List Nat) (f : Bool → Place) (two : Two) (out : List (PatchOut Unit)), s.patches = [[6, 9, 10], [7, 8, 11]] ∧ redOf 2 [(1, 0)] = some red ∧
    reverseAll ⟨pyrOut.polygons, pyrUsers, s.patches, s.table, pyrOut.faceOf, []⟩ red (blueOf [0, 1] red) = some two ∧
    savePatches () demoDivided5.m0 8 none (originsOf () demoSoup5 demoCone) true true ⟨true, true, true, true, true, true⟩ 2 two f (merged 2 red (blueOf [0, 1] red)) = some out ∧
    ∀ place asIs, ∃ q, out.filter (fun q => q.place = place ∧ q.asIs = asIs) = [q] ∧
      PatchMeshOf () demoDivided5.m0 4 3 8 pyrOut.polygons pyrOut.faceOf true true asIs (if place = .outside then [6, 9, 10] else [7, 8, 11]) q := by
  obtain ⟨J, hw, hsz, hS, hrec, hx, hnd, h2, hkeys, hst, A, hl, ⟨pieces, D⟩, one, common, -, -, clean, -, -⟩ := C74_demo
  obtain ⟨S', hS', M, -⟩ := C60_soup 0 J J hw none hsz
  rw [hS] at hS'; injection hS' with hS'; subst hS'
  have FF : FromFaces () demoCone := by
    have e : runAll (Mesh.empty ()) [.addVertex (), .addVertex (), .addVertex (), .addVertex (), .addFace [0, 1, 2], .addFace [0, 2, 3], .addFace [0, 3, 1]] = some demoCone :=
      some_getD (by decide +kernel)
    refine runAll_from _ _ _ .empty ?_ e
    intro op hop
    simp only [List.mem_cons, List.not_mem_nil, or_false] at hop
    rcases hop with rfl | rfl | rfl | rfl | rfl | rfl | rfl
    all_goals first | exact .inl ⟨_, rfl⟩ | exact .inr ⟨_, rfl⟩
  have nF : demoCone.numFaces = 3 := by decide +kernel
  have nV : demoCone.numVertices = 4 := by decide +kernel
  have nV' : demoSoup5.ps.numVertices = 8 := by decide +kernel
  have nF' : demoSoup5.ps.numFaces = 6 := by decide +kernel
  have G := C71_given M hw hw _ demoTables5 hrec hx hnd h2 demoKeys5 hkeys id (fun _ _ _ => true) demoCut5 hst A hl D
  have few : ∀ h, LiveH demoSoup5.ps h → (demoTables5.edges (edgeOf h)).length ≤ 1 := by
    intro h hl
    have h1 := ((reachable_wf G.ready.psOk).liveH_iff h).1 hl
    have h3 : edgeOf h < demoSoup5.ps.nE := h1.1
    rw [show demoSoup5.ps.nE = 12 by decide +kernel] at h3
    have : ∀ e ∈ List.range 12, (demoTables5.edges e).length ≤ 1 := by decide +kernel
    exact this _ (List.mem_range.2 h3)
  obtain ⟨o, U, r, e1, e2, e3, H⟩ := C81_patches_partial 0 J FF J hw hw none hsz _ hS _ demoTables5 hrec hx hnd h2 demoKeys5 hkeys id (fun _ _ _ => true) hst A hl D common clean keeping keeping_ok
    (by decide +kernel) [8, 9, 10, 11, 12, 13] (by decide +kernel) (by
      intro v
      have e : demoCut5.cutEdges.map (endsOf demoCut5.m0) = [(11, 8), (11, 9), (12, 9), (12, 10), (13, 8), (13, 10)] := by decide +kernel
      have : (∃ e ∈ demoCut5.cutEdges, (endsOf demoCut5.m0 e).1 = v ∨ (endsOf demoCut5.m0 e).2 = v) ↔ ∃ x ∈ demoCut5.cutEdges.map (endsOf demoCut5.m0), x.1 = v ∨ x.2 = v := by
        simp only [List.mem_map, exists_exists_and_eq_and]
      rw [this, e]
      simp only [List.mem_cons, List.not_mem_nil, or_false, exists_eq_or_imp, exists_eq_left]
      omega)
    (fun _ v _ => some (decide (5 ≤ v ∧ v ≤ 7))) (fun h _ => 5 ≤ src demoSoup5.ps h ∧ src demoSoup5.ps h ≤ 7)
    (fun h g x Ar => ⟨_, rfl, by rw [arrives_old G (few h Ar.part.1) Ar, decide_eq_true_iff]⟩)
  rw [nF, nV', nF'] at e1
  have eo : pyrOut = o := by unfold pyrOut; rw [e1]; rfl
  subst eo
  have eU : pyrUsers = U := by unfold pyrUsers; rw [e2]; rfl
  subst eU
  have cnt : pyrOut.smCount = 6 := by decide +kernel
  have nE : 2 * demoCut5.m0.nE = 12 := by decide +kernel
  have er : r.seqs = [[0, 1, 2, 3, 5, 4]] ∧ r.vs = [(13, 0), (10, 0), (12, 0), (9, 0), (11, 0), (8, 0)] := by
    have : (paths (endsOf demoCut5.m0) [8, 9, 10, 11, 12, 13] demoCut5.cutEdges).map (fun r => (r.seqs, r.vs)) =
      some ([[0, 1, 2, 3, 5, 4]], [(13, 0), (10, 0), (12, 0), (9, 0), (11, 0), (8, 0)]) := by decide +kernel
    rw [e3, Option.map_some, Option.some.injEq, Prod.mk.injEq] at this
    exact this
  rw [cnt, nE, er.1, er.2, nV, nF, nV'] at H
  obtain ⟨pool, s, adj, E, h3, h4, PS, h5, h6, EX, H⟩ := H [⟨false, true, true⟩] ⟨true, true, true, true, true, true⟩ rfl (by decide) (by intro n h; cases h)
  have hh : makingHoles [⟨false, true, true⟩] = [0] := by decide
  rw [hh] at h3 h6
  have c1 : (seeds pyrOut.polygons 6 pyrUsers [[0, 1, 2, 3, 5, 4]] [0]).bind (fun p => (discover pyrOut.polygons pyrUsers 12 p).map (fun s => (s.patches, neighbours s.table p))) =
      some ([[6, 9, 10], [7, 8, 11]], some [(1, 0)]) := by decide +kernel
  rw [h3, Option.bind_some, h4, Option.map_some, Option.some.injEq, Prod.mk.injEq, h5, Option.some.injEq] at c1
  obtain ⟨c1, rfl⟩ := c1
  have c2 : exterior demoSoup5.ps demoDivided5.m0 4 3 8 demoTables5.reg (fun _ v _ => some (decide (5 ≤ v ∧ v ≤ 7))) (pathAt [(13, 0), (10, 0), (12, 0), (9, 0), (11, 0), (8, 0)]) [0] pyrOut =
      some [(6, 1), (9, 2), (10, 0)] := by decide +kernel
  rw [c2] at h6
  obtain rfl := Option.some.inj h6
  obtain ⟨red, f, two, out, placeOf, r1, r2, r3, r4, r5, r6⟩ := H pyrBase [0, 1] [(9, 2), (6, 1), (10, 0)] true true pyr_two_sided pyr_connected ⟨by decide, by
    intro k
    simp only [List.mem_cons, List.not_mem_nil, or_false, exists_eq_left]
    omega⟩ (by decide)
  have r6 := r6 (.inl ⟨by simp, fun i x hi => by
    have := (EX.exact i).2 ⟨x, hi⟩
    simpa [pyrBase] using this⟩)
  rw [c1] at r1 r3 r4 r5 r6
  refine ⟨s, red, f, two, out, c1, r1, by rw [c1]; exact r3, r4, ?_⟩
  have pl0 : placeOf 0 = some .outside := by
    obtain ⟨p, p1, p2⟩ := r6 0 [6, 9, 10] 6 rfl (by simp)
    rw [p1, p2.2 (by decide)]
  have pl1 : placeOf 1 = some .inside := by
    obtain ⟨p, p1, p2⟩ := r6 1 [7, 8, 11] 7 rfl (by simp)
    cases p with
    | inside => exact p1
    | outside => exact absurd (p2.1 rfl) (by decide)
  intro place asIs
  obtain ⟨ks, k1, k2, k3⟩ := r5 place asIs
  have lt2 : ∀ k ∈ ks, k < 2 := by
    intro k hk
    obtain ⟨i, hi, rfl⟩ := List.getElem_of_mem hk
    have hlen := k3.length_eq
    obtain ⟨l, l1, -⟩ := (List.forall₂_iff_get.1 k3).2 i hi (by omega)
    exact (List.getElem?_eq_some_iff.1 l1).1
  have hks : ks = [if place = .outside then 0 else 1] := by
    have key : ∀ k, k ∈ ks ↔ k = if place = .outside then 0 else 1 := by
      intro k
      constructor
      · intro hk
        have h1 := lt2 k hk
        have h2 := ((k2 k).1 hk).2
        have : k = 0 ∨ k = 1 := by omega
        rcases this with rfl | rfl
        · rw [pl0] at h2; rw [← Option.some.inj h2]; rfl
        · rw [pl1] at h2; rw [← Option.some.inj h2]; rfl
      · rintro rfl
        rw [k2]
        cases place
        · exact ⟨rfl, pl1⟩
        · exact ⟨rfl, pl0⟩
    exact List.perm_singleton.1 ((List.perm_ext_iff_of_nodup k1 (List.nodup_singleton _)).2 (fun k => by rw [key, List.mem_singleton]))
  rw [hks] at k3
  cases hq : out.filter (fun q => q.place = place ∧ q.asIs = asIs) with
  | nil => rw [hq] at k3; cases k3
  | cons q qs =>
    rw [hq] at k3
    obtain ⟨⟨l, l1, l2⟩, k4⟩ := List.forall₂_cons.1 k3
    cases k4
    refine ⟨q, rfl, ?_⟩
    cases place <;> · obtain rfl := Option.some.inj l1; exact l2

end Mcut.Patches
