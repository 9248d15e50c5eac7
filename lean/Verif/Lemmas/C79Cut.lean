import Verif.Lemmas.C79
import Verif.Lemmas.C78Flat
import Verif.Lemmas.C67

/-! Lemmas for C79: the polygons of the cut mesh along the cut paths. -/
namespace Mcut.Patches
open Mcut.Hmesh Mcut.Extract Mcut.Registry Mcut.CutEdges Mcut.Boundary Mcut.Trace Mcut.Split Mcut.CutPaths
variable {P : Type} {d : P} {ps : Mesh P} {base : Nat} {pts : Nat → List Nat} {sort : Nat → Nat → List Nat → List Nat} {edges : List Nat} {c : CutEdges.St P} {st : Boundary.St P}
  {pieces : Nat → List Nat} {reg : List (Nat × Nat)} {smV smF n : Nat} {o : Out} {T : Nat → List Nat} {poly : Nat → List (List Nat)}

/-- What the stage starts from. -/
structure CutFacts (d : P) (ps : Mesh P) (smV smF base : Nat) (pts : Nat → List Nat) (sort : Nat → Nat → List Nat → List Nat) (edges : List Nat) (c : CutEdges.St P) (st : Boundary.St P)
    (pieces : Nat → List Nat) (reg : List (Nat × Nat)) (n : Nat) (o : Out) (T : Nat → List Nat) (poly : Nat → List (List Nat)) : Prop where
  F : Facts d ps smV smF base pts sort edges c st pieces reg n o T poly
  own : OwnVertices ps smV smF
  anch : ∀ f, smF ≤ f → f < n → ∀ x, edgeOf x ∈ c.faceEdges f → Anchored ps pts c st.m0 f x
  cutIn : ∀ e, e < c.m0.nE → ∃ f, smF ≤ f ∧ f < n ∧ e ∈ c.faceEdges f
  simple : ∀ i p, o.smCount ≤ i → o.polygons[i]? = some p → (p.map st.m0.target).Nodup
  pointed : Pointed ps smV smF base reg (endsOf c.m0) c.cutEdges
  curves : Curves (endsOf c.m0) c.cutEdges
  all : ∀ e, e ∈ c.cutEdges ↔ e < c.m0.nE

theorem edge_opp (x : Nat) : edgeOf (opposite x) = edgeOf x := by unfold edgeOf opposite; split <;> omega

theorem cut_lt {x k : Nat} : x < 2 * k ↔ edgeOf x < k := by unfold edgeOf; omega

theorem takeWhile_place {x : Nat} : ∀ {p : List Nat}, x ∈ p → p[(p.takeWhile (fun y => y != x)).length]? = some x := by
  intro p
  induction p with
  | nil => intro h; cases h
  | cons a l ih =>
    intro h
    by_cases e : a = x
    · subst e; simp
    · have : x ∈ l := by
        rcases List.mem_cons.1 h with h | h
        · exact absurd h.symm e
        · exact h
      rw [List.takeWhile_cons_of_pos (by simpa using e), List.length_cons, List.getElem?_cons_succ]
      exact ih this

section
variable (C : CutFacts d ps smV smF base pts sort edges c st pieces reg n o T poly)
include C

theorem CutFacts.face {i : Nat} {p : List Nat} (hi : o.smCount ≤ i) (hp : o.polygons[i]? = some p) : ∃ f, o.faceOf i = some f ∧ smF ≤ f ∧ f < n ∧ p ∈ poly f := by
  obtain ⟨f, f1, f2, f3⟩ := C.F.L.into hp
  have hs : (List.range n).Pairwise (· < ·) := List.pairwise_lt_range
  have := C.F.L.first hs f2
  exact ⟨f, f2, by omega, List.mem_range.1 f1, f3⟩

theorem CutFacts.index {i f : Nat} (hi : o.faceOf i = some f) : o.smCount ≤ i ↔ smF ≤ f := by
  have hs : (List.range n).Pairwise (· < ·) := List.pairwise_lt_range
  have := C.F.L.first hs hi
  omega

theorem CutFacts.user {i x : Nat} : InCut o.polygons o.smCount i x ↔ i ∈ T x ∧ o.smCount ≤ i := by
  rw [(C.F.used.table x).2 i]
  exact ⟨fun h => ⟨h.2, h.1⟩, fun h => ⟨h.2, h.1⟩⟩

theorem CutFacts.unique {i j x : Nat} (hi : InCut o.polygons o.smCount i x) (hj : InCut o.polygons o.smCount j x) : i = j := by
  obtain ⟨i1, p, i2, -⟩ := id hi
  obtain ⟨j1, q, j2, -⟩ := id hj
  obtain ⟨f, f1, f2, -⟩ := C.face i1 i2
  obtain ⟨g, g1, g2, -⟩ := C.face j1 j2
  exact C.F.used.once x i (C.user.1 hi).1 j (C.user.1 hj).1 f g f1 g1 (by omega)

/-- A cut halfedge is used by a polygon of the cut mesh. -/
theorem CutFacts.exists {x : Nat} (hx : edgeOf x < c.m0.nE) : ∃ i, InCut o.polygons o.smCount i x := by
  obtain ⟨f, f1, f2, f3⟩ := C.cutIn _ hx
  obtain ⟨i, i1, i2⟩ := C.F.used.whole x f f3 ((C.F.live f).1 f2) (C.anch f f1 f2 x f3)
  exact ⟨i, C.user.2 ⟨i1, (C.index i2).2 f1⟩⟩

/-- A halfedge of a polygon of the cut mesh, which is not a cut halfedge, is part of a halfedge of the face. -/
theorem CutFacts.part {i x : Nat} (hi : InCut o.polygons o.smCount i x) (hn : c.m0.nE ≤ edgeOf x) :
    ∃ h f, PartOf ps st.m0 pts sort pieces h x ∧ ps.face h = some f ∧ smF ≤ f ∧ f < n ∧ h ∈ ps.fh f ∧ o.faceOf i = some f := by
  obtain ⟨h1, p, h2, h3⟩ := hi
  obtain ⟨f, f1, f2, f3, f4⟩ := C.face h1 h2
  obtain ⟨h, hh, hx⟩ := List.mem_flatMap.1 (((C.F.uses f f3).boundary x hn).1 (List.mem_flatten.2 ⟨p, f4, h3⟩))
  have l := C.F.G.live ((C.F.live f).1 f3) hh
  exact ⟨h, f, (C.F.G.part_iff l.1).2 hx, l.2.2, f2, f3, hh, f1⟩

/-- The faces on both sides of an edge are of the same mesh. -/
theorem CutFacts.other {h f g : Nat} (hl : LiveH ps h) (hf : ps.face h = some f) (hg : ps.face (opposite h) = some g) : smF ≤ f ↔ smF ≤ g := by
  have hr := C.F.G.ready.psOk
  obtain ⟨f1, -, -, f2⟩ := face_ends hr hl hf
  obtain ⟨-, -, s3, -, s5⟩ := src_of hr hl
  obtain ⟨g1, -, g2, -⟩ := face_ends hr s5 hg
  have a := C.own f _ f1 f2
  have b := C.own g _ g1 g2
  rw [s3] at b
  omega

theorem CutFacts.net : Net o.polygons o.smCount (2 * c.m0.nE) T := by
  refine ⟨⟨_, rfl⟩, ?_⟩
  intro i x hi hx j
  have hn : c.m0.nE ≤ edgeOf x := by unfold edgeOf; omega
  obtain ⟨h, f, p1, p2, p3, p4, p5, -⟩ := C.part hi hn
  have hop := part_opposite C.F.G.ready.psOk C.F.G.divided.valid p1
  rw [C.user]
  cases hg : ps.face (opposite h) with
  | none =>
    rw [C.F.used.free _ _ hop hg]
    simp
  | some g =>
    obtain ⟨j', e1, e2⟩ := C.F.used.side _ _ g hop hg
    have := (C.other p1.1 p2 hg).1 p3
    have hj' := (C.index e2).2 this
    rw [e1]
    simp only [List.head?_cons, Option.some.injEq, List.mem_singleton]
    constructor
    · rintro rfl; exact ⟨rfl, hj'⟩
    · rintro ⟨rfl, -⟩; rfl

/-- Where two cut edges meet, the boundary of a polygon of the cut mesh leads from one to the other, in the same polygon or in its neighbour. -/
theorem CutFacts.step {i x : Nat} (hi : InCut o.polygons o.smCount i x) (hx : edgeOf x < c.m0.nE) (h2 : degree (endsOf c.m0) c.cutEdges (st.m0.target x) = 2) :
    ∃ j z, InCut o.polygons o.smCount j z ∧ edgeOf z < c.m0.nE ∧ src st.m0 z = st.m0.target x ∧ edgeOf z ≠ edgeOf x ∧ SamePatch o.polygons o.smCount (2 * c.m0.nE) i j := by
  obtain ⟨i1, p, i2, i3⟩ := id hi
  obtain ⟨f, f1, f2, f3, f4⟩ := C.face i1 i2
  have S := C.F.sub f f3
  have R := S.round p f4
  have hr := C.F.G.divided.valid
  have live : ∀ y ∈ p, LiveH st.m0 y := fun y hy => S.live y (List.mem_flatten.2 ⟨p, f4, hy⟩)
  obtain ⟨y, y1, y2⟩ := follows_next R.cyclic i3
  have hyp := y1.mem.2
  have hef : edgeOf x ∈ c.faceEdges f := (C.F.uses f f3).cut x (List.mem_flatten.2 ⟨p, f4, i3⟩) hx
  have hb : base ≤ st.m0.target x := C.F.G.cutEnds f _ hef _ (joins_endsIn (C.F.G.joins hef)).2
  by_cases hc : edgeOf y < c.m0.nE
  · refine ⟨i, y, ⟨i1, p, i2, hyp⟩, hc, y2.symm, ?_, .refl _⟩
    intro e
    rcases half_eq hr (live x i3) e.symm with h | ⟨h, -⟩
    · subst h
      have := (src_of hr (live x i3)).2.1
      exact this y2.symm
    · -- back along the same edge
      obtain ⟨w, w1, w2⟩ := follows_prev R.cyclic i3
      have hwy : w = y := by
        refine List.inj_on_of_nodup_map (C.simple i p i1 i2) w1.mem.1 hyp ?_
        rw [w2, (src_of hr (live x i3)).1]
        rw [h, opp_opp]
      subst hwy
      have hnd := C.F.used.simple p (List.mem_of_getElem? i2)
      have h3 := R.three
      obtain ⟨k, k1, k2⟩ := w1
      obtain ⟨k', k3, k4⟩ := y1
      have hk : k < p.length := (List.getElem?_eq_some_iff.1 k1).1
      have hk' : k' < p.length := (List.getElem?_eq_some_iff.1 k3).1
      have a := (List.getElem?_inj hk' hnd).1 (k3.trans k2.symm)
      have b := (List.getElem?_inj hk hnd).1 (k1.trans k4.symm)
      have m1 : k + 1 < p.length ∨ k + 1 = p.length := by omega
      have m2 : k' + 1 < p.length ∨ k' + 1 = p.length := by omega
      rcases m1 with m1 | m1 <;> rcases m2 with m2 | m2
      · rw [Nat.mod_eq_of_lt m1] at a; rw [Nat.mod_eq_of_lt m2] at b; omega
      · rw [Nat.mod_eq_of_lt m1] at a; rw [m2, Nat.mod_self] at b; omega
      · rw [m1, Nat.mod_self] at a; rw [Nat.mod_eq_of_lt m2] at b; omega
      · rw [m1, Nat.mod_self] at a; rw [m2, Nat.mod_self] at b; omega
  · have hiy : InCut o.polygons o.smCount i y := ⟨i1, p, i2, hyp⟩
    have hnc : c.m0.nE ≤ edgeOf y := by omega
    obtain ⟨h, f', p1, p2, p3, p4, p5, p6⟩ := C.part hiy hnc
    rw [f1] at p6
    obtain rfl := Option.some.inj p6
    obtain ⟨n1, -⟩ := C.F.G.new_part p1
    have hpt := n1 (by rw [← y2]; exact hb)
    rw [← y2] at hpt
    -- the edge is not a border edge
    have hnb : ¬ BorderEdge ps (edgeOf h) := by
      obtain ⟨a, g, a1, a2, -, a3, -⟩ := C.pointed (edgeOf x) ((C.all _).2 hx) (st.m0.target x) (by
        have := (joins_endsIn (C.F.G.joins hef)).2
        exact this)
      obtain ⟨k, g', k1, k2⟩ := (C.F.G.points _ _).1 hpt
      have : st.m0.target x - base = k := by omega
      rw [this, k2] at a2
      obtain ⟨rfl, -⟩ := Prod.mk.inj (Option.some.inj a2)
      intro hbo
      have := a3 hbo; omega
    have hop := part_opposite C.F.G.ready.psOk hr p1
    obtain ⟨g, hg⟩ : ∃ g, ps.face (opposite h) = some g := by
      cases hg : ps.face (opposite h) with
      | some g => exact ⟨g, rfl⟩
      | none =>
        exfalso; apply hnb
        unfold BorderEdge
        rcases _root_.Mcut.Trace.half_of (rfl : edgeOf h = edgeOf h) with h' | h'
        · right
          have : opposite h = halfedgeOf (edgeOf h) 1 := by rw [h']; unfold opposite halfedgeOf edgeOf; split <;> omega
          rw [← this]; exact hg
        · left
          have : opposite h = halfedgeOf (edgeOf h) 0 := by rw [h']; unfold opposite halfedgeOf edgeOf; split <;> omega
          rw [← this]; exact hg
    have hgs := (C.other p1.1 p2 hg).1 p3
    obtain ⟨j, j1, j2⟩ := C.F.used.side _ _ g hop hg
    have hj : InCut o.polygons o.smCount j (opposite y) := C.user.2 ⟨by rw [j1]; simp, (C.index j2).2 hgs⟩
    have hbes : Beside o.polygons o.smCount (2 * c.m0.nE) i j := ⟨y, hiy, hj, by unfold edgeOf at hnc; omega⟩
    obtain ⟨q1, q, q2, q3⟩ := id hj
    obtain ⟨g', g1, -, g3, g4⟩ := C.face q1 q2
    rw [j2] at g1
    obtain rfl := Option.some.inj g1
    obtain ⟨-, hgm, -, -⟩ := face_ends C.F.G.ready.psOk hop.1 hg
    have ty : st.m0.target (opposite y) = st.m0.target x := by rw [← (src_of hr p1.2.1).1, ← y2]
    obtain ⟨z, z1, z2, -⟩ := (C.F.cross g g3).ahead q g4 (opposite y) q3 (opposite h) hgm ((C.F.G.part_iff hop.1).1 hop) (by rw [ty, edge_opp]; exact hpt)
    have hzl := C.F.G.cutLt g _ z2
    refine ⟨j, z, ⟨q1, q, q2, z1.mem.2⟩, hzl, ?_, ?_, .rel _ _ hbes⟩
    · obtain ⟨z', z1', z3⟩ := follows_next ((C.F.sub g g3).round q g4).cyclic q3
      have hnd := C.F.used.simple q (List.mem_of_getElem? q2)
      have : z' = z := by
        obtain ⟨k, k1, k2⟩ := z1
        obtain ⟨k', k1', k2'⟩ := z1'
        have hk : k < q.length := (List.getElem?_eq_some_iff.1 k1).1
        have := (List.getElem?_inj hk hnd).1 (k1.trans k1'.symm)
        subst this
        rw [k2] at k2'; exact (Option.some.inj k2').symm
      rw [← this, ← z3, ty]
    · intro e
      rw [e] at z2
      have := C.F.two _ f g hef z2 (by omega)
      subst this
      have := C.F.G.edge_inj ((C.F.live f).1 f3) p5 hgm (edge_opp h).symm
      unfold opposite at this
      split at this <;> omega

theorem CutFacts.inc {x : Nat} (hx : edgeOf x < c.m0.nE) : Inc (endsOf c.m0) (edgeOf x) (src st.m0 x) ∧ Inc (endsOf c.m0) (edgeOf x) (st.m0.target x) := by
  obtain ⟨f, -, -, hf⟩ := C.cutIn _ hx
  exact joins_endsIn (C.F.G.joins hf)

theorem CutFacts.few {v : Nat} {l : List Nat} (hl : l.Nodup) (hm : ∀ e ∈ l, e < c.m0.nE ∧ Inc (endsOf c.m0) e v) : l.length ≤ degree (endsOf c.m0) c.cutEdges v := by
  unfold degree
  rw [List.countP_eq_length_filter]
  refine (hl.subperm (fun e he => ?_)).length_le
  rw [List.mem_filter]
  refine ⟨(C.all e).2 (hm e he).1, ?_⟩
  rcases (hm e he).2 with h | h <;> simp [h]

/-- Along the cut: polygons of the cut mesh on the same side of consecutive cut edges. -/
theorem CutFacts.link {i j x y : Nat} (hi : InCut o.polygons o.smCount i x) (hj : InCut o.polygons o.smCount j y) (hx : edgeOf x < c.m0.nE) (hy : edgeOf y < c.m0.nE)
    (hne : edgeOf x ≠ edgeOf y) (hs : src st.m0 y = st.m0.target x) : SamePatch o.polygons o.smCount (2 * c.m0.nE) i j := by
  have ix := (C.inc hx).2
  have iy := (C.inc hy).1
  rw [hs] at iy
  have d1 := C.curves.degree (st.m0.target x)
  have d2 := C.few (v := st.m0.target x) (l := [edgeOf x, edgeOf y]) (by simp [hne]) (by
    intro e he
    simp only [List.mem_cons, List.not_mem_nil, or_false] at he
    rcases he with rfl | rfl
    · exact ⟨hx, ix⟩
    · exact ⟨hy, iy⟩)
  simp only [List.length_cons, List.length_nil] at d2
  obtain ⟨k, z, z1, z2, z3, z4, z5⟩ := C.step hi hx (by omega)
  have iz := (C.inc z2).1
  rw [z3] at iz
  have e : edgeOf z = edgeOf y := by
    by_contra hzy
    have d3 := C.few (v := st.m0.target x) (l := [edgeOf x, edgeOf y, edgeOf z]) (by simp [hne, Ne.symm z4, Ne.symm hzy]) (by
      intro e he
      simp only [List.mem_cons, List.not_mem_nil, or_false] at he
      rcases he with rfl | rfl | rfl
      · exact ⟨hx, ix⟩
      · exact ⟨hy, iy⟩
      · exact ⟨z2, iz⟩)
    simp only [List.length_cons, List.length_nil] at d3
    omega
  obtain ⟨f, -, -, hf⟩ := C.cutIn _ z2
  have hl : LiveH st.m0 z := ((reachable_wf C.F.G.divided.valid).liveH_iff z).2 (C.F.G.cut_kept hf).1
  have := eq_of_ends C.F.G.divided.valid hl e (by rw [z3, hs])
  subst this
  rw [C.unique hj z1]; exact z5

theorem CutFacts.liveH {x : Nat} (hx : edgeOf x < c.m0.nE) : LiveH st.m0 x := by
  obtain ⟨f, -, -, hf⟩ := C.cutIn _ hx
  exact ((reachable_wf C.F.G.divided.valid).liveH_iff x).2 (C.F.G.cut_kept hf).1

/-- The same side of two cut edges: the polygons of the cut mesh along `x0` and along `x` are in the same patch, and so are those along the opposite halfedges. -/
def SameSides (polys : List (List Nat)) (smCount numCut x0 x : Nat) : Prop :=
  (∀ i j, InCut polys smCount i x0 → InCut polys smCount j x → SamePatch polys smCount numCut i j) ∧
  ∀ i j, InCut polys smCount i (opposite x0) → InCut polys smCount j (opposite x) → SamePatch polys smCount numCut i j

theorem CutFacts.path {seq : List Nat} {p : Nat → Nat} (A : Along (endsOf c.m0) seq p) (hs : ∀ e ∈ seq, e < c.m0.nE) (hnd : seq.Nodup) {e0 : Nat} (h0 : seq.head? = some e0) :
    ∀ k e x, seq[k]? = some e → edgeOf x = e → src st.m0 x = p k → st.m0.target x = p (k + 1) → ∃ x0, edgeOf x0 = e0 ∧ SameSides o.polygons o.smCount (2 * c.m0.nE) x0 x := by
  intro k
  induction k with
  | zero =>
    intro e x hk hx hsx htx
    rw [← List.head?_eq_getElem?, h0] at hk
    obtain rfl := Option.some.inj hk
    refine ⟨x, hx, ?_, ?_⟩
    · intro i j h1 h2; rw [C.unique h1 h2]; exact .refl _
    · intro i j h1 h2; rw [C.unique h1 h2]; exact .refl _
  | succ k ih =>
    intro e x hk hx hsx htx
    have hk1 := (List.getElem?_eq_some_iff.1 hk).1
    obtain ⟨e', he'⟩ : ∃ e', seq[k]? = some e' := ⟨_, List.getElem?_eq_getElem (by omega)⟩
    have hee : e' ≠ e := by
      intro h
      rw [h, ← hk] at he'
      have := (List.getElem?_inj (by omega) hnd).1 he'
      omega
    have hlt' := hs e' (List.mem_of_getElem? he')
    have hlt := hs e (List.mem_of_getElem? hk)
    obtain ⟨f, -, -, hf⟩ := C.cutIn _ hlt'
    obtain ⟨x', x1, x2, x3⟩ := C.F.G.half_of (v := p k) (w := p (k + 1)) hf (by
      rcases A.joins k e' he' with h | h
      · left; exact Prod.mk.inj h
      · right; exact Prod.mk.inj h)
    obtain ⟨x0, y1, y2, y3⟩ := ih e' x' he' x1 x2 x3
    have lx' : edgeOf x' < c.m0.nE := by rw [x1]; exact hlt'
    have lx : edgeOf x < c.m0.nE := by rw [hx]; exact hlt
    have hne : edgeOf x' ≠ edgeOf x := by rw [x1, hx]; exact hee
    have sx := src_of C.F.G.divided.valid (C.liveH lx)
    have sx' := src_of C.F.G.divided.valid (C.liveH lx')
    refine ⟨x0, y1, ?_, ?_⟩
    · intro i j h1 h2
      obtain ⟨m, hm⟩ := C.exists lx'
      exact .trans _ _ _ (y2 i m h1 hm) (C.link hm h2 lx' lx hne (by rw [hsx, x3]))
    · intro i j h1 h2
      obtain ⟨m, hm⟩ := C.exists (x := opposite x') (by rw [edge_opp]; exact lx')
      refine .trans _ _ _ (y3 i m h1 hm) (.symm _ _ (C.link h2 hm (by rw [edge_opp]; exact lx) (by rw [edge_opp]; exact lx') (by rw [edge_opp, edge_opp]; exact hne.symm) ?_))
      rw [sx'.2.2.1, ← sx.1, hsx, x3]

/-- Every cut edge is on the same sides as the first one of its path. -/
theorem CutFacts.first {seqs : List (List Nat)} (Q : Sequences (endsOf c.m0) c.cutEdges seqs) {x : Nat} (hx : edgeOf x < c.m0.nE) :
    ∃ seq ∈ seqs, edgeOf x ∈ seq ∧ ∃ e0 x0, seq.head? = some e0 ∧ edgeOf x0 = e0 ∧ SameSides o.polygons o.smCount (2 * c.m0.nE) x0 x := by
  obtain ⟨seq, s1, s2⟩ := List.mem_flatten.1 (Q.partition.mem_iff.2 ((C.all _).2 hx))
  have hnd : seq.Nodup := (List.nodup_flatten.1 (Q.partition.nodup_iff.2 C.curves.nodup)).1 seq s1
  have hlt : ∀ e ∈ seq, e < c.m0.nE := fun e he => (C.all e).1 (Q.partition.mem_iff.1 (List.mem_flatten.2 ⟨seq, s1, he⟩))
  obtain ⟨p, A⟩ : ∃ p, Along (endsOf c.m0) seq p := by
    rcases Q.shape seq s1 with ⟨v, w, -, p, h, -⟩ | ⟨-, p, h, -⟩
    · exact ⟨p, h⟩
    · exact ⟨p, h⟩
  obtain ⟨e0, h0⟩ : ∃ e0, seq.head? = some e0 := by
    cases seq with
    | nil => cases s2
    | cons a l => exact ⟨a, rfl⟩
  obtain ⟨k, hk⟩ := List.mem_iff_getElem?.1 s2
  refine ⟨seq, s1, s2, e0, ?_⟩
  obtain ⟨f, -, -, hf⟩ := C.cutIn _ hx
  obtain ⟨x', x1, x2, x3⟩ := C.F.G.half_of (v := p k) (w := p (k + 1)) hf (by
    rcases A.joins k _ hk with h | h
    · left; exact Prod.mk.inj h
    · right; exact Prod.mk.inj h)
  obtain ⟨x0, y1, y2, y3⟩ := C.path A hlt hnd h0 k _ x' hk x1 x2 x3
  rcases half_eq C.F.G.divided.valid (C.liveH hx) x1.symm with h | ⟨h, -⟩
  · subst h; exact ⟨x0, h0, y1, y2, y3⟩
  · refine ⟨opposite x0, h0, by rw [edge_opp]; exact y1, ?_⟩
    unfold SameSides
    rw [opp_opp, h, opp_opp]
    exact ⟨y3, y2⟩

/-- The seed at a cut halfedge. -/
theorem CutFacts.seed {x : Nat} (hx : edgeOf x < c.m0.nE) : ∃ i k p, seedOf o.polygons o.smCount T x = some (i, k) ∧ InCut o.polygons o.smCount i x ∧ o.polygons[i]? = some p ∧ p[k]? = some x := by
  obtain ⟨i, hi⟩ := C.exists hx
  have hf : ∃ j, (T x).find? (fun j => decide (o.smCount ≤ j)) = some j := by
    cases hf : (T x).find? (fun j => decide (o.smCount ≤ j)) with
    | some j => exact ⟨j, rfl⟩
    | none =>
      have := List.find?_eq_none.1 hf i (C.user.1 hi).1
      simp at this
      have := hi.1; omega
  obtain ⟨j, hj⟩ := hf
  have hin : InCut o.polygons o.smCount j x := C.user.2 ⟨List.mem_of_find?_eq_some hj, by have := List.find?_some hj; simpa using this⟩
  obtain ⟨h1, p, h2, h3⟩ := id hin
  refine ⟨j, _, p, ?_, hin, h2, takeWhile_place h3⟩
  unfold seedOf
  rw [hj, Option.bind_some, h2, Option.bind_some, if_pos (by simpa using h3)]

/-- All seeds. -/
theorem CutFacts.seeds {seqs : List (List Nat)} (Q : Sequences (endsOf c.m0) c.cutEdges seqs) (holes : List Nat) (hh : ∀ k ∈ holes, k < seqs.length) :
    ∃ pool, Patches.seeds o.polygons o.smCount T seqs holes = some pool ∧ ∃ a b : Nat → Nat × Nat, pool = holes.flatMap (fun k => [a k, b k]) ∧
      ∀ k ∈ holes, ∃ seq e, seqs[k]? = some seq ∧ seq.head? = some e ∧ e < c.m0.nE ∧ seedOf o.polygons o.smCount T (halfedgeOf e 0) = some (a k) ∧
        seedOf o.polygons o.smCount T (halfedgeOf e 1) = some (b k) := by
  have ex : ∀ k, ∃ ab : (Nat × Nat) × (Nat × Nat), k < seqs.length → ∃ seq e, seqs[k]? = some seq ∧ seq.head? = some e ∧ e < c.m0.nE ∧
      seedOf o.polygons o.smCount T (halfedgeOf e 0) = some ab.1 ∧ seedOf o.polygons o.smCount T (halfedgeOf e 1) = some ab.2 := by
    intro k
    by_cases hk : k < seqs.length
    · have hs : seqs[k] ∈ seqs := List.getElem_mem hk
      have hne : seqs[k] ≠ [] := by
        rcases Q.shape _ hs with ⟨v, w, h, -⟩ | ⟨h, -⟩
        · exact h
        · exact h
      obtain ⟨e, l, hel⟩ := List.exists_cons_of_ne_nil hne
      have hlt : e < c.m0.nE := (C.all e).1 (Q.partition.mem_iff.1 (List.mem_flatten.2 ⟨_, hs, by rw [hel]; simp⟩))
      obtain ⟨i, m, p, h1, -⟩ := C.seed (x := halfedgeOf e 0) (by unfold edgeOf halfedgeOf; omega)
      obtain ⟨i', m', p', h1', -⟩ := C.seed (x := halfedgeOf e 1) (by unfold edgeOf halfedgeOf; omega)
      exact ⟨((i, m), (i', m')), fun _ => ⟨_, e, List.getElem?_eq_getElem hk, by rw [hel]; rfl, hlt, h1, h1'⟩⟩
    · exact ⟨((0, 0), (0, 0)), fun h => absurd h hk⟩
  choose ab hab using ex
  refine ⟨holes.flatMap (fun k => [(ab k).1, (ab k).2]), ?_, fun k => (ab k).1, fun k => (ab k).2, rfl, fun k hk => hab k (hh k hk)⟩
  have run : ∀ (l : List Nat) (acc : List (Nat × Nat)), (∀ k ∈ l, k < seqs.length) → l.foldlM (fun acc k => (seqs[k]?).bind (fun seq => (seq.head?).bind (fun e =>
      (seedOf o.polygons o.smCount T (halfedgeOf e 0)).bind (fun a => (seedOf o.polygons o.smCount T (halfedgeOf e 1)).map (fun b => acc ++ [a, b]))))) acc =
      some (acc ++ l.flatMap (fun k => [(ab k).1, (ab k).2])) := by
    intro l
    induction l with
    | nil => intro acc _; simp
    | cons k l ih =>
      intro acc hl
      obtain ⟨seq, e, h1, h2, h3, h4, h5⟩ := hab k (hl k List.mem_cons_self)
      rw [List.foldlM_cons, h1, Option.bind_some, h2, Option.bind_some, h4, Option.bind_some, h5]
      simp only [Option.map_some, Option.bind_eq_bind, Option.bind_some]
      rw [ih _ (fun z hz => hl z (List.mem_cons_of_mem _ hz))]
      simp
  have := run holes [] hh
  rw [List.nil_append] at this
  exact this

end

/-- If as many paths make holes as there are, all do. -/
theorem holes_all {kinds : List Kind} (h : (makingHoles kinds).length = kinds.length) : makingHoles kinds = List.range kinds.length := by
  unfold makingHoles at h ⊢
  rw [List.filter_eq_self]
  have h' : (List.filter (fun k => (kinds[k]?).any (fun x => x.hole)) (List.range kinds.length)).length = (List.range kinds.length).length := by rw [h, List.length_range]
  exact List.length_filter_eq_length_iff.1 h'

end Mcut.Patches
