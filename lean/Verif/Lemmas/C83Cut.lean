import Verif.Lemmas.C83Colour
import Verif.Lemmas.C81
import Verif.Props.C77

/-! Lemmas for C83: the two sides of the cut in "m1". -/
namespace Mcut.Patches
open Mcut.Hmesh Mcut.Extract Mcut.Registry Mcut.CutEdges Mcut.Boundary Mcut.Trace Mcut.Split Mcut.CutPaths
variable {P : Type} {d : P} {ps : Mesh P} {base : Nat} {pts : Nat → List Nat} {sort : Nat → Nat → List Nat → List Nat} {edges : List Nat} {c : CutEdges.St P} {st : Boundary.St P}
  {pieces : Nat → List Nat} {reg : List (Nat × Nat)} {smV smF n : Nat} {o : Out} {T : Nat → List Nat} {poly : Nat → List (List Nat)}

/-- A polygon does not go back. -/
theorem no_back {m0 : Mesh P} (hr : Reachable d m0) {p : List Nat} (R : Round m0 p) (hl : ∀ h ∈ p, LiveH m0 h) (nd : (p.map m0.target).Nodup) {h : Nat} : ¬ Follows p h (opposite h) := by
  intro hf
  have hnd : p.Nodup := List.Nodup.of_map _ nd
  obtain ⟨w, w1, w2⟩ := follows_prev R.cyclic hf.mem.1
  have hwy : w = opposite h := by
    refine List.inj_on_of_nodup_map nd w1.mem.1 hf.mem.2 ?_
    rw [w2, (src_of hr (hl h hf.mem.1)).1]
  subst hwy
  have h3 := R.three
  obtain ⟨k, k1, k2⟩ := w1
  obtain ⟨k', k3, k4⟩ := hf
  have hk : k < p.length := (List.getElem?_eq_some_iff.1 k1).1
  have hk' : k' < p.length := (List.getElem?_eq_some_iff.1 k3).1
  have a := (List.getElem?_inj hk' hnd).1 (k3.trans k2.symm)
  have b := (List.getElem?_inj hk hnd).1 (k1.trans k4.symm)
  have m1 : k + 1 < p.length ∨ k + 1 = p.length := by omega
  have m2 : k' + 1 < p.length ∨ k' + 1 = p.length := by omega
  rcases m1 with m1 | m1 <;> rcases m2 with m2 | m2
  · rw [Nat.mod_eq_of_lt m1] at a; rw [Nat.mod_eq_of_lt m2] at b; omega
  · rw [Nat.mod_eq_of_lt m1] at a; rw [m2, Nat.mod_self] at b; omega
  · rw [m1, Nat.mod_self] at a; rw [Nat.mod_eq_of_lt m2] at b; omega
  · rw [m1, Nat.mod_self] at a; rw [m2, Nat.mod_self] at b; omega

/-- The polygons of the source mesh have no repeated corners. -/
def SimpleSource (m0 : Mesh P) (o : Out) : Prop := ∀ p ∈ o.polygons.take o.smCount, (p.map m0.target).Nodup

/-- There is one cut edge between two points. -/
def OneCut (c : CutEdges.St P) : Prop := ∀ f g a b v w, a ∈ c.faceEdges f → b ∈ c.faceEdges g → Joins c.m0 a v w → Joins c.m0 b v w → a = b

section
variable (C : CutFacts d ps smV smF base pts sort edges c st pieces reg n o T poly)
include C

/-- Halfedges of "m0" with the same ends. -/
theorem CutFacts.single0 (cutOne : OneCut c) {x y : Nat} (lx : LiveH st.m0 x) (ly : LiveH st.m0 y) (hs : src st.m0 x = src st.m0 y) (ht : st.m0.target x = st.m0.target y)
    (kx : edgeOf x < c.m0.nE ∨ src st.m0 x < base ∨ st.m0.target x < base) (ky : edgeOf y < c.m0.nE ∨ src st.m0 y < base ∨ st.m0.target y < base) : x = y := by
  by_cases hx : edgeOf x < c.m0.nE <;> by_cases hy : edgeOf y < c.m0.nE
  · obtain ⟨f, f1, f2, f3⟩ := C.cutIn _ hx
    obtain ⟨g, g1, g2, g3⟩ := C.cutIn _ hy
    exact C.F.G.ends_inj C.F.one cutOne ⟨f, (C.F.live f).1 f2, .inr f3⟩ ⟨g, (C.F.live g).1 g2, .inr g3⟩ lx ly hs ht
  · have := C.F.cut_ends hx; omega
  · have := C.F.cut_ends hy; omega
  · obtain ⟨h, hh⟩ := C.F.G.part_every lx (by omega)
    obtain ⟨h', hh'⟩ := C.F.G.part_every ly (by omega)
    exact C.F.G.part_ends C.F.one hh hh' hs ht

/-- A halfedge of the source mesh is on the cut or has an original end. -/
theorem CutFacts.kind0 {x : Nat} (hx : OfSource o x) : edgeOf x < c.m0.nE ∨ src st.m0 x < base ∨ st.m0.target x < base := by
  by_cases hc : edgeOf x < c.m0.nE
  · exact .inl hc
  · obtain ⟨h, f, h1, h2, h3, h4⟩ := (C.F.side_source (by omega)).1 hx
    exact .inr (C.F.one_end h1 h2 (by have := C.F.le; omega) h4)

theorem CutFacts.liveS {p : List Nat} (hp : p ∈ o.polygons.take o.smCount) : ∀ h ∈ p, LiveH st.m0 h := fun h hh => C.F.liveH ⟨p, hp, hh⟩

/-- The face of a polygon of the source mesh. -/
theorem CutFacts.faceS {p : List Nat} (hp : p ∈ o.polygons.take o.smCount) : ∃ f, f < smF ∧ f < n ∧ p ∈ poly f := by
  obtain ⟨f, hf, hpf⟩ := C.F.poly_in hp
  exact ⟨f, hf, by have := C.F.le; omega, hpf⟩

/-- A halfedge of a polygon of the source mesh, not on the cut, with its face and the halfedge it is part of. -/
theorem CutFacts.partS {p : List Nat} {f x : Nat} (hf : f < n) (hp : p ∈ poly f) (hx : x ∈ p) (hn : c.m0.nE ≤ edgeOf x) : ∃ h, PartOf ps st.m0 pts sort pieces h x ∧ ps.face h = some f ∧ h ∈ ps.fh f := by
  obtain ⟨h, hh, hx'⟩ := List.mem_flatMap.1 (((C.F.uses f hf).boundary x hn).1 (List.mem_flatten.2 ⟨p, hp, hx⟩))
  have l := C.F.G.live ((C.F.live f).1 hf) hh
  exact ⟨h, (C.F.G.part_iff l.1).2 hx', l.2.2, hh⟩

variable {m1 : Mesh P} {polys1 : List (List Nat)} {ver orig : Nat → Nat}

/-- A cut edge has two versions in "m1": they do not begin in the same vertex. -/
theorem CutFacts.two_sides (simple : SimpleSource st.m0 o) (V : SplitOf d st.m0 base (2 * c.m0.nE) (o.polygons.take o.smCount) m1 polys1 ver orig) {h : Nat} (hc : edgeOf h < c.m0.nE) :
    src m1 (ver h) ≠ m1.target (ver (opposite h)) := by
  intro e
  have hr := C.F.G.divided.valid
  obtain ⟨p, hp, hh⟩ := C.F.cut_source hc
  have hU : OfSource o h := ⟨p, hp, hh⟩
  have hO : OfSource o (opposite h) := C.F.cut_source (by rw [edge_opp]; exact hc)
  obtain ⟨q, q1, q2⟩ := follows_prev (C.F.round hp).cyclic hh
  have hq : OfSource o q := ⟨p, hp, q1.mem.1⟩
  have hcl := V.closed p hp q h q1
  have hb : base ≤ st.m0.target q := by rw [q2]; exact (C.F.cut_ends hc).1
  have oo : opposite (opposite h) = h := opp_opp h
  rcases (V.points q (opposite h) hq hO hb).1 (hcl.trans e) with h1 | h1 | h1
  · rw [h1] at q1
    have := no_back hr (C.F.round hp) (C.liveS hp) (simple p hp) (h := opposite h)
    rw [oo] at this
    exact this q1
  · obtain ⟨n1, p', hp', hf⟩ := h1
    have hnq : c.m0.nE ≤ edgeOf q := by unfold edgeOf; omega
    obtain ⟨f, f1, f2, f3⟩ := C.faceS hp
    obtain ⟨g, g1, g2, g3⟩ := C.faceS hp'
    obtain ⟨hh1, a1, a2, a3⟩ := C.partS f2 f3 q1.mem.1 hnq
    obtain ⟨hh2, b1, b2, b3⟩ := C.partS g2 g3 hf.mem.2 (by rw [edge_opp]; exact hnq)
    have hop := part_opposite C.F.G.ready.psOk hr a1
    have e2 := C.F.G.part_one b1 hop
    subst e2
    have c1 := (C.F.uses f f2).cut h (List.mem_flatten.2 ⟨p, f3, hh⟩) hc
    have c2 := (C.F.uses g g2).cut (opposite h) (List.mem_flatten.2 ⟨p', g3, hf.mem.1⟩) (by rw [edge_opp]; exact hc)
    rw [edge_opp] at c2
    have := C.F.two _ f g c1 c2 (by omega)
    subst this
    have := C.F.G.edge_inj ((C.F.live f).1 f2) a3 b3 (edge_opp hh1).symm
    unfold opposite at this
    split at this <;> omega
  · have := h1.1
    have h2 : edgeOf (opposite h) < c.m0.nE := by rw [edge_opp]; exact hc
    have := cut_lt.2 h2
    omega

/-- Where the cut goes on, in "m1". -/
theorem CutFacts.stepS (simple : SimpleSource st.m0 o) (V : SplitOf d st.m0 base (2 * c.m0.nE) (o.polygons.take o.smCount) m1 polys1 ver orig) {a : Nat} (ha : edgeOf a < c.m0.nE)
    (h2 : degree (endsOf c.m0) c.cutEdges (st.m0.target a) = 2) :
    ∃ z, edgeOf z < c.m0.nE ∧ src st.m0 z = st.m0.target a ∧ edgeOf z ≠ edgeOf a ∧ m1.target (ver a) = src m1 (ver z) := by
  have hr := C.F.G.divided.valid
  obtain ⟨p, hp, hh⟩ := C.F.cut_source ha
  have hU : OfSource o a := ⟨p, hp, hh⟩
  obtain ⟨f, f1, f2, f3⟩ := C.faceS hp
  obtain ⟨y, y1, y2⟩ := follows_next (C.F.round hp).cyclic hh
  have hcl := V.closed p hp a y y1
  have hb : base ≤ st.m0.target a := (C.F.cut_ends ha).2
  have hef : edgeOf a ∈ c.faceEdges f := (C.F.uses f f2).cut a (List.mem_flatten.2 ⟨p, f3, hh⟩) ha
  by_cases hc : edgeOf y < c.m0.nE
  · refine ⟨y, hc, y2.symm, ?_, hcl⟩
    intro e
    rcases half_eq hr (C.liveS hp a hh) e.symm with h | ⟨h, -⟩
    · subst h
      exact (src_of hr (C.liveS hp a hh)).2.1 y2.symm
    · have hb := no_back hr (C.F.round hp) (C.liveS hp) (simple p hp) (h := a)
      have e' : y = opposite a := by rw [h, opp_opp]
      rw [← e'] at hb
      exact hb y1
  · have hnc : c.m0.nE ≤ edgeOf y := by omega
    obtain ⟨h, p1, p2, p3⟩ := C.partS f2 f3 y1.mem.2 hnc
    obtain ⟨n1, -⟩ := C.F.G.new_part p1
    have hpt := n1 (by rw [← y2]; exact hb)
    rw [← y2] at hpt
    have hnb : ¬ BorderEdge ps (edgeOf h) := by
      obtain ⟨a', g, a1, a2, -, a3, -⟩ := C.pointed (edgeOf a) ((C.all _).2 ha) (st.m0.target a) (by
        have := (joins_endsIn (C.F.G.joins hef)).2
        exact this)
      obtain ⟨k, g', k1, k2⟩ := (C.F.G.points _ _).1 hpt
      have : st.m0.target a - base = k := by omega
      rw [this, k2] at a2
      obtain ⟨rfl, -⟩ := Prod.mk.inj (Option.some.inj a2)
      intro hbo
      have := a3 hbo; omega
    have hop := part_opposite C.F.G.ready.psOk hr p1
    obtain ⟨g, hg⟩ : ∃ g, ps.face (opposite h) = some g := by
      cases hg : ps.face (opposite h) with
      | some g => exact ⟨g, rfl⟩
      | none =>
        exfalso; apply hnb
        unfold BorderEdge
        rcases _root_.Mcut.Trace.half_of (rfl : edgeOf h = edgeOf h) with h' | h'
        · right
          have : opposite h = halfedgeOf (edgeOf h) 1 := by rw [h']; unfold opposite halfedgeOf edgeOf; split <;> omega
          rw [← this]; exact hg
        · left
          have : opposite h = halfedgeOf (edgeOf h) 0 := by rw [h']; unfold opposite halfedgeOf edgeOf; split <;> omega
          rw [← this]; exact hg
    have hgs : g < smF := by
      have := C.other p1.1 p2 hg
      omega
    have hgn : g < n := by have := C.F.le; omega
    obtain ⟨-, hgm, -, -⟩ := face_ends C.F.G.ready.psOk hop.1 hg
    have hoy : OfSource o (opposite y) := (C.F.side_source (by rw [edge_opp]; exact hnc)).2 ⟨_, g, hop, hg, hgs, hgm⟩
    obtain ⟨g', g1, g2⟩ := C.F.source_iff.1 hoy
    obtain ⟨q, g3, q3⟩ := List.mem_flatten.1 g2
    have hq : q ∈ o.polygons.take o.smCount := by rw [C.F.take]; exact List.mem_flatMap.2 ⟨g', List.mem_range.2 g1, g3⟩
    have hgn' : g' < n := by have := C.F.le; omega
    obtain ⟨h', b1, b2, b3⟩ := C.partS hgn' g3 q3 (by rw [edge_opp]; exact hnc)
    have e2 := C.F.G.part_one b1 hop
    subst e2
    rw [hg] at b2
    obtain rfl := Option.some.inj b2
    have ty : st.m0.target (opposite y) = st.m0.target a := by rw [← (src_of hr p1.2.1).1, ← y2]
    obtain ⟨z, z1, z2, -⟩ := (C.F.cross g hgn).ahead q g3 (opposite y) q3 (opposite h) hgm ((C.F.G.part_iff hop.1).1 hop) (by rw [ty, edge_opp]; exact hpt)
    have hzl := C.F.G.cutLt g _ z2
    refine ⟨z, hzl, ?_, ?_, ?_⟩
    · obtain ⟨z', z1', z3⟩ := follows_next (C.F.round hq).cyclic q3
      have hnd := C.F.used.simple q (List.mem_of_mem_take hq)
      have : z' = z := by
        obtain ⟨k, k1, k2⟩ := z1
        obtain ⟨k', k1', k2'⟩ := z1'
        have hk : k < q.length := (List.getElem?_eq_some_iff.1 k1).1
        have := (List.getElem?_inj hk hnd).1 (k1.trans k1'.symm)
        subst this
        rw [k2] at k2'; exact (Option.some.inj k2').symm
      rw [← this, ← z3, ty]
    · intro e
      rw [e] at z2
      have := C.F.two _ f g hef z2 (by omega)
      subst this
      have := C.F.G.edge_inj ((C.F.live f).1 f2) p3 hgm (edge_opp h).symm
      unfold opposite at this
      split at this <;> omega
    · have hy : OfSource o y := ⟨p, hp, y1.mem.2⟩
      have tog := V.together y hy hoy (by unfold edgeOf at hnc; omega)
      have hl := V.live y hy
      rw [hcl, ← V.closed q hq _ z z1, tog, ← (src_of V.mesh.1 hl).1]

/-- In "m1", the versions of consecutive cut halfedges are consecutive. -/
theorem CutFacts.linkS (simple : SimpleSource st.m0 o) (V : SplitOf d st.m0 base (2 * c.m0.nE) (o.polygons.take o.smCount) m1 polys1 ver orig) {a b : Nat} (ha : edgeOf a < c.m0.nE)
    (hb : edgeOf b < c.m0.nE) (hne : edgeOf a ≠ edgeOf b) (hs : src st.m0 b = st.m0.target a) : m1.target (ver a) = src m1 (ver b) := by
  have ix := (C.inc ha).2
  have iy := (C.inc hb).1
  rw [hs] at iy
  have d1 := C.curves.degree (st.m0.target a)
  have d2 := C.few (v := st.m0.target a) (l := [edgeOf a, edgeOf b]) (by simp [hne]) (by
    intro e he
    simp only [List.mem_cons, List.not_mem_nil, or_false] at he
    rcases he with rfl | rfl
    · exact ⟨ha, ix⟩
    · exact ⟨hb, iy⟩)
  simp only [List.length_cons, List.length_nil] at d2
  obtain ⟨z, z2, z3, z4, z5⟩ := C.stepS simple V ha (by omega)
  have iz := (C.inc z2).1
  rw [z3] at iz
  have e : edgeOf z = edgeOf b := by
    by_contra hzy
    have d3 := C.few (v := st.m0.target a) (l := [edgeOf a, edgeOf b, edgeOf z]) (by simp [hne, Ne.symm z4, Ne.symm hzy]) (by
      intro e he
      simp only [List.mem_cons, List.not_mem_nil, or_false] at he
      rcases he with rfl | rfl | rfl
      · exact ⟨ha, ix⟩
      · exact ⟨hb, iy⟩
      · exact ⟨z2, iz⟩)
    simp only [List.length_cons, List.length_nil] at d3
    omega
  have := eq_of_ends C.F.G.divided.valid (C.liveH z2) e (by rw [z3, hs])
  rw [← this]; exact z5

/-- "m1" has no double edges. -/
theorem CutFacts.single1 (cutOne : OneCut c) (simple : SimpleSource st.m0 o) (V : SplitOf d st.m0 base (2 * c.m0.nE) (o.polygons.take o.smCount) m1 polys1 ver orig) {order : List Nat} {he : Nat → Option Nat}
    (HT : HalfTables d (envOf ps smV smF base (2 * c.m0.nE) reg st.m0 st.incoming T o) (OfSource o) st.m0 order m1 ver he) : Stitch.Single m1 := by
  have hr := C.F.G.divided.valid
  have p1 : Plain d m1 := ⟨V.mesh.1, V.mesh.2.2.1, V.mesh.2.2.2.1, V.mesh.2.1, V.mesh.2.2.2.2⟩
  have hle : st.m0.nE = st.m0.nE := rfl
  obtain ⟨S, -⟩ := link_spec st.m0 (o.polygons.take o.smCount)
  have live0 : ∀ h, edgeOf h < st.m0.nE → LiveH st.m0 h := by
    intro h hh
    rw [(reachable_wf hr).liveH_iff]
    refine ⟨hh, ?_⟩
    rw [C.F.G.divided.numbers.2.2]; simp
  -- the halfedge of "m0" below a halfedge of "m1"
  have below : ∀ k, edgeOf k < m1.nE → (∃ h, OfSource o h ∧ (base ≤ src st.m0 h ∨ base ≤ st.m0.target h) ∧ (k = ver h ∧ orig (src m1 k) = src st.m0 h ∧ orig (m1.target k) = st.m0.target h ∨
      k = opposite (ver h) ∧ orig (src m1 k) = st.m0.target h ∧ orig (m1.target k) = src st.m0 h)) ∨
      ∃ h, he h = some k ∧ edgeOf h < st.m0.nE ∧ src m1 k = src st.m0 h ∧ m1.target k = st.m0.target h ∧ src st.m0 h < base ∧ st.m0.target h < base := by
    intro k hk
    rcases HT.kinds k hk with ⟨h, h1, h2, h3⟩ | h1
    · left
      refine ⟨h, h1, ?_, ?_⟩
      · have h2' : base ≤ src (Split.link st.m0 (o.polygons.take o.smCount)) h ∨ base ≤ (Split.link st.m0 (o.polygons.take o.smCount)).target h := h2
        rw [S.src, S.target] at h2'; exact h2'
      · obtain ⟨e1, e2⟩ := V.ends h h1
        have hl := V.live h h1
        rcases half_eq V.mesh.1 hl h3 with h4 | ⟨h4, -⟩
        · left; exact ⟨h4.symm, by rw [← h4]; exact e1, by rw [← h4]; exact e2⟩
        · right
          have h5 : k = opposite (ver h) := by rw [h4, opp_opp]
          refine ⟨h5, ?_, ?_⟩
          · rw [h5, (src_of V.mesh.1 hl).2.2.1]; exact e2
          · rw [h5, ← (src_of V.mesh.1 hl).1]; exact e1
    · exact .inr h1
  have hbn : base ≤ st.m0.nV := by
    have h1 := C.F.G.ready.total
    have h2 := C.F.G.divided.same.1
    omega
  have low : ∀ v, v < base → orig v = v := fun v hv => V.kept.2 v (by omega)
  -- mixed
  have mixed : ∀ a b, edgeOf a < m1.nE → edgeOf b < m1.nE → src m1 a = src m1 b → m1.target a = m1.target b →
      (∃ h, OfSource o h ∧ (base ≤ src st.m0 h ∨ base ≤ st.m0.target h) ∧ (a = ver h ∧ orig (src m1 a) = src st.m0 h ∧ orig (m1.target a) = st.m0.target h ∨
      a = opposite (ver h) ∧ orig (src m1 a) = st.m0.target h ∧ orig (m1.target a) = src st.m0 h)) →
      (∃ h, he h = some b ∧ edgeOf h < st.m0.nE ∧ src m1 b = src st.m0 h ∧ m1.target b = st.m0.target h ∧ src st.m0 h < base ∧ st.m0.target h < base) → False := by
    rintro a b _ _ hs ht ⟨h, -, h2, h3⟩ ⟨g, -, -, g3, g4, g5, g6⟩
    rw [hs, ht, g3, g4, low _ g5, low _ g6] at h3
    rcases h3 with ⟨-, h3, h4⟩ | ⟨-, h3, h4⟩ <;> omega
  intro a b ha hb hs ht
  rcases below a ha with A | A <;> rcases below b hb with B | B
  · obtain ⟨h, hU, -, h1⟩ := A
    obtain ⟨g, gU, -, g1⟩ := B
    have lh := C.F.liveH hU
    have lg := C.F.liveH gU
    have sh := src_of hr lh
    have sg := src_of hr lg
    have kh := C.kind0 hU
    have kg := C.kind0 gU
    -- two halfedges on different sides of an edge
    have go : ∀ h g, OfSource o h → OfSource o g → g = opposite h → src m1 (ver h) = src m1 (opposite (ver g)) → ver h = opposite (ver g) := by
      intro h g hU gU e es
      subst e
      by_cases hc : edgeOf h < c.m0.nE
      · exfalso
        have := C.two_sides simple V hc
        rw [es, (src_of V.mesh.1 (V.live _ gU)).2.2.1] at this
        exact this rfl
      · rw [V.together h hU gU (by unfold edgeOf at hc; omega), opp_opp]
    rcases h1 with ⟨rfl, h2, h3⟩ | ⟨rfl, h2, h3⟩ <;> rcases g1 with ⟨rfl, g2, g3⟩ | ⟨rfl, g2, g3⟩
    · rw [C.single0 cutOne lh lg (by rw [← h2, ← g2, hs]) (by rw [← h3, ← g3, ht]) kh kg]
    · have e : h = opposite g := C.single0 cutOne lh sg.2.2.2.2 (by rw [← h2, hs, g2, sg.2.2.1]) (by rw [← h3, ht, g3, sg.1]) kh (by rw [edge_opp, sg.2.2.1, ← sg.1]; tauto)
      exact go h g hU gU (by rw [e, opp_opp]) hs
    · have e : h = opposite g := C.single0 cutOne lh sg.2.2.2.2 (by rw [← h3, ht, g3, sg.2.2.1]) (by rw [← h2, hs, g2, sg.1]) kh (by rw [edge_opp, sg.2.2.1, ← sg.1]; tauto)
      exact (go g h gU hU e hs.symm).symm
    · rw [C.single0 cutOne lh lg (by rw [← h3, ← g3, ht]) (by rw [← h2, ← g2, hs]) kh kg]
  · exact (mixed a b ha hb hs ht A B).elim
  · exact (mixed b a hb ha hs.symm ht.symm B A).elim
  · obtain ⟨h, h1, h2, h3, h4, h5, h6⟩ := A
    obtain ⟨g, g1, g2, g3, g4, g5, g6⟩ := B
    have e := C.single0 cutOne (live0 h h2) (live0 g g2) (by rw [← h3, ← g3, hs]) (by rw [← h4, ← g4, ht]) (.inr (.inl h5)) (.inr (.inl g5))
    subst e
    rw [h1] at g1
    exact Option.some.inj g1

end

end Mcut.Patches
