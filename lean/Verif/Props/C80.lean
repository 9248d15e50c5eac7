import Verif.Lemmas.C80Cut
import Verif.Lemmas.C80Out
import Verif.Props.C79

/-!
# C80: colours and places of the patches
-/
namespace Mcut.Patches
open Mcut.Hmesh Mcut.Extract Mcut.Registry Mcut.CutEdges Mcut.Boundary Mcut.Trace Mcut.Split Mcut.CutPaths
variable {P : Type} {d : P} {sort : Nat → Nat → List Nat → List Nat} {edges : List Nat} {c : CutEdges.St P} {st : Boundary.St P} {pieces : Nat → List Nat}

/-- The number of the cut path through a point, in the table that `paths` fills. -/
def pathAt (vs : List (Nat × Nat)) (v : Nat) : Option Nat := (vs.find? (fun e => e.1 == v)).map (fun e => e.2)

/-- **C80.** In the setting of C79, with the cut paths of C67, all of them making holes: the neighbours, the colours and the places of the patches are found without exception.
Two patches are recorded as neighbours exactly if polygons of theirs meet in a cut edge. If the polygons of the cut mesh can be told apart into those outside and those
not outside of the source mesh, so that the side changes exactly at the cut, and the polygons at the cut hang together through edges, then every patch gets one of the two colours,
and two patches get the same colour exactly if they are on the same side. The exterior polygons are exactly those with a boundary that passes into the source mesh, each with the first
halfedge that does. If there are any, and they are outside, then a patch gets the place "outside" exactly if its polygons are outside — in whatever order the hash maps are passed through;
if there are none, the same holds provided that the first patch is not outside. -/
theorem C80_places_partial {sm cs ps : Mesh P} (M : MergeOf d sm cs ps) (hvs : Preproc.ValidMesh sm.numVertices (polygons sm)) (hv : Preproc.ValidMesh cs.numVertices (polygons cs))
    (R : List (Nat × Nat × P)) (t : Registry.Tables P) (T : Recorded ps sm.numFaces ps.numVertices R t) (hx : CrossTested ps sm.numFaces t.reg) (hnd : t.reg.Nodup)
    (h2 : ∀ k, t.cut k ≠ [] → (t.cut k).length = 2) (keys : List (Nat × Nat)) (hkeys : ∀ k, k ∈ keys ↔ t.cut k ≠ []) (csort : List Nat → List Nat)
    (inside : Nat → Nat → Nat → Bool) (hst : cutEdges ps ps.numVertices t.reg csort inside t.cut keys (addPoints (copyVertices d ps).1 t.pts) = some c)
    (A : Arranges ps t.edges sort) (hl : AllEdges ps edges) (D : Divided d ps ps.numVertices t.edges sort edges c st pieces) (one : SimpleEdges ps) (common : OneCommonEdge ps)
    (clean : ∀ f, f < sm.numFaces + cs.numFaces → CleanFace ps t.edges sort c f)
    (part : (Nat → Bool) → List Nat → List Nat × List Nat) (hp : IsPartition part)
    (hne : c.cutEdges ≠ []) (order : List Nat) (ond : order.Nodup) (horder : ∀ v, v ∈ order ↔ ∃ e ∈ c.cutEdges, (endsOf c.m0 e).1 = v ∨ (endsOf c.m0 e).2 = v)
    (falls : Nat → Nat → Nat → Option Bool) (down : Nat → Nat → Prop)
    (hfalls : ∀ h g x, Arrives ps st.m0 ps.numVertices t.edges sort pieces t.reg h g x → ∃ b, falls g (src st.m0 x) (st.m0.target x) = some b ∧ (b = true ↔ down h g)) :
    ∃ o U r, sequential ps st sm.numFaces ps.numVertices t.reg part (List.range ps.numFaces) = some o ∧ users st.m0.numHalfedges o.polygons = some U ∧
      paths (endsOf c.m0) order c.cutEdges = some r ∧
      ∀ (kinds : List Kind) (w : Wishes), kinds.length = r.seqs.length → proceeds (makingHoles kinds) r.seqs w = true →
        ∃ pool s adj E, seeds o.polygons o.smCount U r.seqs (makingHoles kinds) = some pool ∧ discover o.polygons U (2 * c.m0.nE) pool = some s ∧
          PatchesOf o.polygons o.smCount (2 * c.m0.nE) s.patches ∧ neighbours s.table pool = some adj ∧
          (∀ k k', ((k, k') ∈ adj ∨ (k', k) ∈ adj) ↔ ∃ l l' i j, s.patches[k]? = some l ∧ s.patches[k']? = some l' ∧ i ∈ l ∧ j ∈ l' ∧ Across o.polygons o.smCount (2 * c.m0.nE) i j) ∧
          exterior ps st.m0 sm.numVertices sm.numFaces ps.numVertices t.reg falls (pathAt r.vs) (makingHoles kinds) o = some E ∧
          ExteriorOf ps st.m0 sm.numFaces ps.numVertices t.edges sort pieces t.reg down o E ∧
          ∀ (out : Nat → Prop) (names : List Nat) (ext : List (Nat × Nat)), TwoSided o.polygons o.smCount (2 * c.m0.nE) out → EdgeConnected o.polygons o.smCount (2 * c.m0.nE) →
            KeysOf adj names → ext.Perm E →
            ∃ red f, redOf s.patches.length adj = some red ∧ ColoursOf s.patches out red (blueOf names red) ∧ meaning s.table red (blueOf names red) ext = some f ∧
              ((E ≠ [] ∧ (∀ i x, EntersAt ps st.m0 sm.numFaces ps.numVertices t.edges sort pieces t.reg down o i x → out i)) ∨ (E = [] ∧ ∀ l i, s.patches[0]? = some l → i ∈ l → ¬ out i) →
                ∀ (k : Nat) (l : List Nat) i, s.patches[k]? = some l → i ∈ l → ∃ a, colourOf red (blueOf names red) k = some a ∧ (f a = .outside ↔ out i)) := by
  obtain ⟨o, U, poly, e, hU, C⟩ := cut_facts M hvs hv R t T hx hnd h2 keys hkeys csort inside hst A hl D one common clean part hp
  obtain ⟨r, hr, Q, hvsr⟩ := C67_sequences C.curves hne order ond horder
  refine ⟨o, U, r, e, hU, hr, fun kinds w hlen hpr => ?_⟩
  unfold proceeds at hpr
  rw [Bool.and_eq_true, beq_iff_eq] at hpr
  have hh := holes_all (by rw [hpr.1, hlen] : (makingHoles kinds).length = kinds.length)
  rw [hh, hlen]
  obtain ⟨pool, s, hpool, hs, PS, TS, SS⟩ := patches_of C Q
  obtain ⟨adj, hadj, hlt, hacr, hback⟩ := C.neighbours Q hpool PS TS
  have pos : 0 < c.m0.nE := by
    obtain ⟨x, hx⟩ := List.exists_mem_of_ne_nil _ hne
    have := (C.all x).1 hx
    omega
  have hseq : ∀ v, (∃ e ∈ c.cutEdges, (endsOf c.m0 e).1 = v ∨ (endsOf c.m0 e).2 = v) → ∃ q, pathAt r.vs v = some q ∧ (List.range r.seqs.length).contains q = true := by
    rintro v ⟨y, hy, hv'⟩
    have hy' : y ∈ r.seqs.flatten := Q.partition.mem_iff.2 hy
    obtain ⟨seq, s1, s2⟩ := List.mem_flatten.1 hy'
    obtain ⟨i, hi⟩ := List.mem_iff_getElem?.1 s1
    have hin : (v, i) ∈ r.vs := (hvsr v i).2 ⟨seq, hi, y, s2, hv'⟩
    unfold pathAt
    cases hf : r.vs.find? (fun e => e.1 == v) with
    | none =>
      rw [List.find?_eq_none] at hf
      exact absurd (hf _ hin) (by simp)
    | some z =>
      refine ⟨z.2, rfl, ?_⟩
      have hz := List.mem_of_find?_eq_some hf
      obtain ⟨seq', q1, -⟩ := (hvsr z.1 z.2).1 hz
      rw [List.contains_iff_mem, List.mem_range]
      exact (List.getElem?_eq_some_iff.1 q1).1
  have hrange : List.range r.seqs.length ≠ [] := by
    intro h0
    obtain ⟨y, hy⟩ := List.exists_mem_of_ne_nil _ hne
    obtain ⟨q, -, q2⟩ := hseq _ ⟨y, hy, .inl rfl⟩
    rw [h0] at q2; cases q2
  obtain ⟨E, hE, EX⟩ := C.exterior (falls := falls) (down := down) (path := pathAt r.vs) (holes := List.range r.seqs.length) hfalls (fun v _ _ h => hseq v h) hrange
  refine ⟨pool, s, adj, E, hpool, hs, PS, hadj, ?_, hE, EX, ?_⟩
  · intro k k'
    constructor
    · rintro (h | h)
      · exact hacr _ h
      · obtain ⟨l, l', i, j, g1, g2, g3, g4, x, x1, x2, x3⟩ := hacr _ h
        exact ⟨l', l, j, i, g2, g1, g4, g3, opposite x, x2, by rw [opp_opp]; exact x1, by rw [cut_lt, edge_opp]; exact cut_lt.1 x3⟩
    · rintro ⟨l, l', i, j, g1, g2, g3, g4, g5⟩
      exact hback i j k k' l l' g5 g1 g2 g3 g4
  · intro out names ext two con hnames hperm
    obtain ⟨red, hred, CO⟩ := C.colours PS pos hlt hacr hback two con hnames
    have hE' : ∀ x ∈ ext, ∃ (k : Nat) (l : List Nat), patchOf s.table x.1 = some k ∧ s.patches[k]? = some l ∧ x.1 ∈ l := by
      intro x hx'
      obtain ⟨y, hy⟩ := (EX.exact x.1).1 (List.mem_map.2 ⟨x, hperm.mem_iff.1 hx', rfl⟩)
      obtain ⟨l, l1, l2⟩ := PS.every x.1 (C.enters hy)
      obtain ⟨k, hk⟩ := List.mem_iff_getElem?.1 l1
      exact ⟨k, l, (TS _ _).2 ⟨l, hk, l2⟩, hk, l2⟩
    have hpos : 0 < s.patches.length := by
      obtain ⟨i, hi⟩ := C.exists (x := 0) pos
      obtain ⟨l, hl, -⟩ := PS.every i ⟨0, hi, by omega⟩
      exact List.length_pos_of_mem hl
    obtain ⟨f, hf, hmean⟩ := meaning_spec CO hE' (fun l hl' h0 => by
      obtain ⟨i, hi, -⟩ := PS.cut l hl'
      rw [h0] at hi; cases hi) hpos
    refine ⟨red, f, hred, CO, hf, fun h => hmean ?_⟩
    rcases h with ⟨h1, h2⟩ | ⟨h1, h2⟩
    · left
      constructor
      · obtain ⟨x, hx'⟩ := List.exists_mem_of_ne_nil _ h1
        exact ⟨x, hperm.mem_iff.2 hx', trivial⟩
      · intro x hx'
        obtain ⟨y, hy⟩ := (EX.exact x.1).1 (List.mem_map.2 ⟨x, hperm.mem_iff.1 hx', rfl⟩)
        exact h2 _ y hy
    · right
      exact ⟨by rw [h1] at hperm; exact hperm.eq_nil, h2⟩

/-- **C80 (fails).** That the polygons at the cut hang together through edges cannot be dropped: of the four patches of two components (0 beside 1, 2 beside 3), patch 0 gets one colour and the three others get the other one, so that
neighbours have the same colour. -/
theorem C80_two_components_fails : redOf 4 [(0, 1), (2, 3)] = some [0] ∧ blueOf [0, 1, 2, 3] [0] = [1, 2, 3] ∧
    colourOf [0] [1, 2, 3] 2 = colourOf [0] [1, 2, 3] 3 := by decide +kernel

/-! ## Example: two pyramids without bases, of `C74_demo` -/

open Mcut.Floating Mcut.Pairs

/-- The polygons of the second pyramid that are at its base. -/
def pyrBase (i : Nat) : Prop := i = 6 ∨ i = 9 ∨ i = 10

instance : DecidablePred pyrBase := fun i => by unfold pyrBase; infer_instance

theorem pyr_two_sided : TwoSided pyrOut.polygons 6 12 pyrBase := by
  have len : pyrOut.polygons.length = 12 := by decide +kernel
  have key : ∀ i ∈ List.range 12, ∀ j ∈ List.range 12, ∀ x ∈ (pyrOut.polygons[i]?).getD [], opposite x ∈ (pyrOut.polygons[j]?).getD [] → 6 ≤ i → 6 ≤ j →
      (12 ≤ x → (pyrBase i ↔ pyrBase j)) ∧ (x < 12 → (pyrBase i ↔ ¬ pyrBase j)) := by decide +kernel
  have go : ∀ i j x, InCut pyrOut.polygons 6 i x → InCut pyrOut.polygons 6 j (opposite x) → (12 ≤ x → (pyrBase i ↔ pyrBase j)) ∧ (x < 12 → (pyrBase i ↔ ¬ pyrBase j)) := by
    rintro i j x ⟨h1, p, h2, h3⟩ ⟨h4, q, h5, h6⟩
    refine key i ?_ j ?_ x (by rw [h2]; exact h3) (by rw [h5]; exact h6) h1 h4
    · rw [List.mem_range, ← len]; exact (List.getElem?_eq_some_iff.1 h2).1
    · rw [List.mem_range, ← len]; exact (List.getElem?_eq_some_iff.1 h5).1
  constructor
  · rintro i j ⟨x, h1, h2, h3⟩; exact (go i j x h1 h2).1 h3
  · rintro i j ⟨x, h1, h2, h3⟩; exact (go i j x h1 h2).2 h3

theorem pyr_connected : EdgeConnected pyrOut.polygons 6 12 := by
  have len : pyrOut.polygons.length = 12 := by decide +kernel
  have beside : ∀ i j, (∃ x ∈ (pyrOut.polygons[i]?).getD [], opposite x ∈ (pyrOut.polygons[j]?).getD [] ∧ 6 ≤ i ∧ 6 ≤ j) →
      Relation.EqvGen (fun a b => Beside pyrOut.polygons 6 12 a b ∨ Across pyrOut.polygons 6 12 a b) i j := by
    rintro i j ⟨x, h1, h2, h3, h4⟩
    have inc : ∀ i x, 6 ≤ i → x ∈ (pyrOut.polygons[i]?).getD [] → InCut pyrOut.polygons 6 i x := by
      intro i x hi hx
      cases hp : pyrOut.polygons[i]? with
      | none => rw [hp] at hx; cases hx
      | some p => rw [hp] at hx; exact ⟨hi, p, hp, hx⟩
    apply Relation.EqvGen.rel
    by_cases hx : x < 12
    · exact .inr ⟨x, inc i x h3 h1, inc j _ h4 h2, hx⟩
    · exact .inl ⟨x, inc i x h3 h1, inc j _ h4 h2, by omega⟩
  have all : ∀ i, 6 ≤ i → i < 12 → Relation.EqvGen (fun a b => Beside pyrOut.polygons 6 12 a b ∨ Across pyrOut.polygons 6 12 a b) 6 i := by
    have e1 := beside 6 7 (by decide +kernel)
    have e2 := beside 6 9 (by decide +kernel)
    have e3 := beside 6 10 (by decide +kernel)
    have e4 := beside 9 8 (by decide +kernel)
    have e5 := beside 10 11 (by decide +kernel)
    intro i h1 h2
    have : i = 6 ∨ i = 7 ∨ i = 8 ∨ i = 9 ∨ i = 10 ∨ i = 11 := by omega
    rcases this with rfl | rfl | rfl | rfl | rfl | rfl
    · exact .refl _
    · exact e1
    · exact .trans _ _ _ e2 e4
    · exact e2
    · exact e3
    · exact .trans _ _ _ e3 e5
  rintro i j ⟨x, ⟨h1, p, h2, -⟩, -⟩ ⟨y, ⟨h3, q, h4, -⟩, -⟩
  have hi : i < 12 := by rw [← len]; exact (List.getElem?_eq_some_iff.1 h2).1
  have hj : j < 12 := by rw [← len]; exact (List.getElem?_eq_some_iff.1 h4).1
  exact .trans _ _ _ (.symm _ _ (all i h1 hi)) (all j h3 hj)

/-- If an edge has one point, its first part begins in its first end. -/
theorem arrives_old {ps : Mesh P} {base : Nat} {pts : Nat → List Nat} {reg : List (Nat × Nat)} (G : Given d ps base pts sort edges c st pieces reg) {h g x : Nat} (few : (pts (edgeOf h)).length ≤ 1)
    (A : Arrives ps st.m0 base pts sort pieces reg h g x) : src st.m0 x = src ps h := by
  have hx := (G.part_iff A.part.1).1 A.part
  have ht := (G.new_part A.part).2 A.point.1
  obtain ⟨-, s2, -, -⟩ := G.sides A.part.1
  obtain ⟨q, q1, q2⟩ := G.path A.part.1
  have hs : src st.m0 x ∈ (pathOf ps pts sort h).dropLast := by rw [← s2]; exact List.mem_map.2 ⟨x, hx, rfl⟩
  rw [q2, ← List.cons_append, List.dropLast_concat] at hs
  rcases List.mem_cons.1 hs with h | h
  · exact h
  · exfalso
    have h1 := q1.subset h
    have hne : src st.m0 x ≠ st.m0.target x := (src_of G.divided.valid A.part.2.1).2.1
    generalize pts _ = l at h1 ht few
    cases l with
    | nil => cases h1
    | cons a l =>
      cases l with
      | nil => rw [List.mem_singleton] at h1 ht; exact hne (h1.trans ht.symm)
      | cons b l => simp at few

/-- Two pyramids without their bases, which cross each other: everything that `C80_places_partial` asks for holds, where "outside" means at the base of the second pyramid. The
exterior polygons are the three at its base, and their patch gets the place "outside", the other one "inside". -/
theorem C80_demo : ∃ (s : Found) (red : List Nat) (f : Bool → Place), s.patches = [[6, 9, 10], [7, 8, 11]] ∧
    exterior demoSoup5.ps demoDivided5.m0 4 3 8 demoTables5.reg (fun _ v _ => some (decide (5 ≤ v ∧ v ≤ 7))) (pathAt [(13, 0), (10, 0), (12, 0), (9, 0), (11, 0), (8, 0)]) [0] pyrOut =
      some [(6, 1), (9, 2), (10, 0)] ∧
    redOf 2 [(1, 0)] = some red ∧ ColoursOf s.patches pyrBase red (blueOf [0, 1] red) ∧ meaning s.table red (blueOf [0, 1] red) [(9, 2), (6, 1), (10, 0)] = some f ∧
    (colourOf red (blueOf [0, 1] red) 0).map f = some .outside ∧ (colourOf red (blueOf [0, 1] red) 1).map f = some .inside := by
  obtain ⟨J, hw, hsz, hS, hrec, hx, hnd, h2, hkeys, hst, A, hl, ⟨pieces, D⟩, one, common, -, -, clean, -, -⟩ := C74_demo
  obtain ⟨S', hS', M, -⟩ := C60_soup 0 J J hw none hsz
  rw [hS] at hS'; injection hS' with hS'; subst hS'
  have nF : demoCone.numFaces = 3 := by decide +kernel
  have nV : demoCone.numVertices = 4 := by decide +kernel
  have nV' : demoSoup5.ps.numVertices = 8 := by decide +kernel
  have nF' : demoSoup5.ps.numFaces = 6 := by decide +kernel
  have G := C71_given M hw hw _ demoTables5 hrec hx hnd h2 demoKeys5 hkeys id (fun _ _ _ => true) demoCut5 hst A hl D
  have few : ∀ h, LiveH demoSoup5.ps h → (demoTables5.edges (edgeOf h)).length ≤ 1 := by
    intro h hl
    have h1 := ((reachable_wf G.ready.psOk).liveH_iff h).1 hl
    have h3 : edgeOf h < demoSoup5.ps.nE := h1.1
    rw [show demoSoup5.ps.nE = 12 by decide +kernel] at h3
    have : ∀ e ∈ List.range 12, (demoTables5.edges e).length ≤ 1 := by decide +kernel
    exact this _ (List.mem_range.2 h3)
  obtain ⟨o, U, r, e1, e2, e3, H⟩ := C80_places_partial M hw hw _ demoTables5 hrec hx hnd h2 demoKeys5 hkeys id (fun _ _ _ => true) hst A hl D one common clean keeping keeping_ok
    (by decide +kernel) [8, 9, 10, 11, 12, 13] (by decide +kernel) (by
      intro v
      have e : demoCut5.cutEdges.map (endsOf demoCut5.m0) = [(11, 8), (11, 9), (12, 9), (12, 10), (13, 8), (13, 10)] := by decide +kernel
      have : (∃ e ∈ demoCut5.cutEdges, (endsOf demoCut5.m0 e).1 = v ∨ (endsOf demoCut5.m0 e).2 = v) ↔ ∃ x ∈ demoCut5.cutEdges.map (endsOf demoCut5.m0), x.1 = v ∨ x.2 = v := by
        simp only [List.mem_map, exists_exists_and_eq_and]
      rw [this, e]
      simp only [List.mem_cons, List.not_mem_nil, or_false, exists_eq_or_imp, exists_eq_left]
      omega)
    (fun _ v _ => some (decide (5 ≤ v ∧ v ≤ 7))) (fun h _ => 5 ≤ src demoSoup5.ps h ∧ src demoSoup5.ps h ≤ 7)
    (fun h g x Ar => ⟨_, rfl, by rw [arrives_old G (few h Ar.part.1) Ar, decide_eq_true_iff]⟩)
  rw [nF, nV', nF'] at e1
  have eo : pyrOut = o := by unfold pyrOut; rw [e1]; rfl
  subst eo
  have eU : pyrUsers = U := by unfold pyrUsers; rw [e2]; rfl
  subst eU
  have cnt : pyrOut.smCount = 6 := by decide +kernel
  have nE : 2 * demoCut5.m0.nE = 12 := by decide +kernel
  have er : r.seqs = [[0, 1, 2, 3, 5, 4]] ∧ r.vs = [(13, 0), (10, 0), (12, 0), (9, 0), (11, 0), (8, 0)] := by
    have : (paths (endsOf demoCut5.m0) [8, 9, 10, 11, 12, 13] demoCut5.cutEdges).map (fun r => (r.seqs, r.vs)) =
      some ([[0, 1, 2, 3, 5, 4]], [(13, 0), (10, 0), (12, 0), (9, 0), (11, 0), (8, 0)]) := by decide +kernel
    rw [e3, Option.map_some, Option.some.injEq, Prod.mk.injEq] at this
    exact this
  rw [cnt, nE, er.1, er.2, nV, nF, nV'] at H
  obtain ⟨pool, s, adj, E, h3, h4, PS, h5, -, h6, EX, H⟩ := H [⟨false, true, true⟩] ⟨true, true, true, true, true, true⟩ rfl (by decide)
  have hh : makingHoles [⟨false, true, true⟩] = [0] := by decide
  rw [hh] at h3 h6
  have c1 : (seeds pyrOut.polygons 6 pyrUsers [[0, 1, 2, 3, 5, 4]] [0]).bind (fun p => (discover pyrOut.polygons pyrUsers 12 p).map (fun s => (s.patches, neighbours s.table p))) =
      some ([[6, 9, 10], [7, 8, 11]], some [(1, 0)]) := by decide +kernel
  rw [h3, Option.bind_some, h4, Option.map_some, Option.some.injEq, Prod.mk.injEq, h5, Option.some.injEq] at c1
  obtain ⟨c1, rfl⟩ := c1
  have c2 : exterior demoSoup5.ps demoDivided5.m0 4 3 8 demoTables5.reg (fun _ v _ => some (decide (5 ≤ v ∧ v ≤ 7))) (pathAt [(13, 0), (10, 0), (12, 0), (9, 0), (11, 0), (8, 0)]) [0] pyrOut =
      some [(6, 1), (9, 2), (10, 0)] := by decide +kernel
  rw [c2] at h6
  obtain rfl := Option.some.inj h6
  obtain ⟨red, f, r1, r2, r3, r4⟩ := H pyrBase [0, 1] [(9, 2), (6, 1), (10, 0)] pyr_two_sided pyr_connected ⟨by decide, by
    intro k
    simp only [List.mem_cons, List.not_mem_nil, or_false, exists_eq_left]
    omega⟩ (by decide)
  have r4 := r4 (.inl ⟨by simp, fun i x hi => by
    have := (EX.exact i).2 ⟨x, hi⟩
    simpa [pyrBase] using this⟩)
  rw [c1] at r1 r4
  refine ⟨s, red, f, c1, c2, r1, r2, r3, ?_, ?_⟩
  · obtain ⟨a, a1, a2⟩ := r4 0 [6, 9, 10] 6 rfl (by simp)
    rw [a1, Option.map_some, a2.2 (by decide)]
  · obtain ⟨a, a1, a2⟩ := r4 1 [7, 8, 11] 7 rfl (by simp)
    rw [a1, Option.map_some]
    cases hf : f a with
    | inside => rfl
    | outside => exact absurd (a2.1 hf) (by decide)

end Mcut.Patches
