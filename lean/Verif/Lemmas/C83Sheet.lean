import Verif.Lemmas.C83Cut
import Verif.Lemmas.C83Rev
import Verif.Spec.C80

/-! Lemmas for C83: the patches fit into the gap along the cut. -/
namespace Mcut.Patches
open Mcut.Hmesh Mcut.Extract Mcut.Registry Mcut.CutEdges Mcut.Boundary Mcut.Trace Mcut.Split Mcut.CutPaths
variable {P : Type} {d : P} {ps : Mesh P} {base : Nat} {pts : Nat → List Nat} {sort : Nat → Nat → List Nat → List Nat} {edges : List Nat} {c : CutEdges.St P} {st : Boundary.St P}
  {pieces : Nat → List Nat} {reg : List (Nat × Nat)} {smV smF n : Nat} {o : Out} {T : Nat → List Nat} {poly : Nat → List (List Nat)}

/-- Halfedge `h` belongs to one of the polygons `l` of the cut mesh. -/
def InPatch (o : Out) (l : List Nat) (h : Nat) : Prop := ∃ i ∈ l, InCut o.polygons o.smCount i h

/-- The halfedges `A` of a patch: they are on one side of the cut. -/
structure OneSide (m0 : Mesh P) (base nE : Nat) (A : Nat → Prop) : Prop where
  live : ∀ h, A h → LiveH m0 h
  ends : ∀ h, A h → (edgeOf h < nE ↔ base ≤ src m0 h ∧ base ≤ m0.target h)
  turn : ∀ h, A h → edgeOf h < nE → ¬ A (opposite h)
  heads : ∀ h h', A h → A h' → edgeOf h < nE → edgeOf h' < nE → edgeOf h ≠ edgeOf h' → m0.target h ≠ m0.target h'
  tails : ∀ h h', A h → A h' → edgeOf h < nE → edgeOf h' < nE → edgeOf h ≠ edgeOf h' → src m0 h ≠ src m0 h'

theorem OneSide.flip {m0 : Mesh P} {nE : Nat} {A : Nat → Prop} (hr : Reachable d m0) (S : OneSide m0 base nE A) : OneSide m0 base nE (fun h => A (opposite h)) := by
  have lv : ∀ h, A (opposite h) → LiveH m0 h := fun h hh => by
    have := (src_of hr (S.live _ hh)).2.2.2.2
    rw [opp_opp] at this; exact this
  have so : ∀ h, A (opposite h) → src m0 (opposite h) = m0.target h ∧ m0.target (opposite h) = src m0 h := fun h hh =>
    ⟨(src_of hr (lv h hh)).2.2.1, (src_of hr (lv h hh)).1.symm⟩
  refine ⟨lv, ?_, ?_, ?_, ?_⟩
  · intro h hh
    have := S.ends _ hh
    rw [edge_opp, (so h hh).1, (so h hh).2] at this
    rw [this]; exact And.comm
  · intro h hh hc
    exact fun h' => S.turn _ hh (by rw [edge_opp]; exact hc) h'
  · intro h h' hh hh' hc hc' hne e
    exact S.tails _ _ hh hh' (by rw [edge_opp]; exact hc) (by rw [edge_opp]; exact hc') (by rw [edge_opp, edge_opp]; exact hne) (by rw [(so h hh).1, (so h' hh').1, e])
  · intro h h' hh hh' hc hc' hne e
    exact S.heads _ _ hh hh' (by rw [edge_opp]; exact hc) (by rw [edge_opp]; exact hc') (by rw [edge_opp, edge_opp]; exact hne) (by rw [(so h hh).2, (so h' hh').2, e])

section
variable (C : CutFacts d ps smV smF base pts sort edges c st pieces reg n o T poly)
include C

theorem CutFacts.oneSide {pats : List (List Nat)} (PS : PatchesOf o.polygons o.smCount (2 * c.m0.nE) pats) {out : Nat → Prop} (two : TwoSided o.polygons o.smCount (2 * c.m0.nE) out) {l : List Nat} (hl : l ∈ pats) :
    OneSide st.m0 base c.m0.nE (InPatch o l) := by
  have hr := C.F.G.divided.valid
  obtain ⟨-, -, whole⟩ := PS.whole l hl
  have lv : ∀ h, InPatch o l h → LiveH st.m0 h := by
    rintro h ⟨i, -, hi⟩
    obtain ⟨i1, p, i2, i3⟩ := id hi
    obtain ⟨f, -, -, f3, f4⟩ := C.face i1 i2
    exact (C.F.sub f f3).live h (List.mem_flatten.2 ⟨p, f4, i3⟩)
  have turn : ∀ h, InPatch o l h → edgeOf h < c.m0.nE → ¬ InPatch o l (opposite h) := by
    rintro h ⟨i, il, hi⟩ hc ⟨j, jl, hj⟩
    have h1 := two.turns i j ⟨h, hi, hj, cut_lt.2 hc⟩
    have h2 : out i ↔ out j := class_closed two.stays ((whole i il j).1 jl)
    tauto
  refine ⟨lv, ?_, turn, ?_, ?_⟩
  · rintro h ⟨i, il, hi⟩
    constructor
    · exact fun hc => C.F.cut_ends hc
    · intro hb
      by_contra hc
      obtain ⟨h', f, p1, p2, -, p4, p5, -⟩ := C.part hi (by omega)
      have := C.F.one_end p1 p2 p4 p5
      omega
  · rintro h h' ⟨i, il, hi⟩ ⟨i', il', hi'⟩ hc hc' hne e
    obtain ⟨j, hj⟩ := C.exists (x := opposite h') (by rw [edge_opp]; exact hc')
    have := C.link hi hj hc (by rw [edge_opp]; exact hc') (by rw [edge_opp]; exact hne) (by rw [(src_of hr (C.liveH hc')).2.2.1, e])
    exact turn h' ⟨i', il', hi'⟩ hc' ⟨j, (whole i il j).2 this, hj⟩
  · rintro h h' ⟨i, il, hi⟩ ⟨i', il', hi'⟩ hc hc' hne e
    obtain ⟨j, hj⟩ := C.exists (x := opposite h') (by rw [edge_opp]; exact hc')
    have := C.link hj hi (by rw [edge_opp]; exact hc') hc (by rw [edge_opp]; exact hne.symm) (by rw [← (src_of hr (C.liveH hc')).1, e])
    exact turn h' ⟨i', il', hi'⟩ hc' ⟨j, (whole i il j).2 (.symm _ _ this), hj⟩

end

/-- Vertex `w` of "m1" is that for point `x`, at a cut halfedge of the patch. -/
def GateAt (m0 m1 : Mesh P) (nE : Nat) (ver : Nat → Nat) (A : Nat → Prop) (x w : Nat) : Prop :=
  ∃ h, A h ∧ edgeOf h < nE ∧ (src m0 h = x ∧ w = m1.target (ver (opposite h)) ∨ m0.target h = x ∧ w = src m1 (ver (opposite h)))

open Classical in
/-- The vertex of "m1" for a point of the patch. -/
noncomputable def gate (m0 m1 : Mesh P) (nE : Nat) (ver : Nat → Nat) (A : Nat → Prop) (x : Nat) : Nat := if h : ∃ w, GateAt m0 m1 nE ver A x w then h.choose else 0

section
variable (C : CutFacts d ps smV smF base pts sort edges c st pieces reg n o T poly) {m1 : Mesh P} {polys1 : List (List Nat)} {ver orig : Nat → Nat} {A : Nat → Prop}
include C

theorem CutFacts.gate_one (simple : SimpleSource st.m0 o) (V : SplitOf d st.m0 base (2 * c.m0.nE) (o.polygons.take o.smCount) m1 polys1 ver orig) (S : OneSide st.m0 base c.m0.nE A) {x w w' : Nat}
    (a : GateAt st.m0 m1 c.m0.nE ver A x w) (b : GateAt st.m0 m1 c.m0.nE ver A x w') : w = w' := by
  have hr := C.F.G.divided.valid
  obtain ⟨h, h1, h2, h3⟩ := a
  obtain ⟨g, g1, g2, g3⟩ := b
  have sh := src_of hr (C.liveH h2)
  have sg := src_of hr (C.liveH g2)
  by_cases he : edgeOf h = edgeOf g
  · have : h = g := by
      rcases half_eq hr (C.liveH h2) he with e | ⟨e, -⟩
      · exact e
      · exact absurd g1 (by have := S.turn h h1 h2; rw [e, opp_opp] at this; exact this)
    subst this
    rcases h3 with ⟨h3, rfl⟩ | ⟨h3, rfl⟩ <;> rcases g3 with ⟨g3, rfl⟩ | ⟨g3, rfl⟩
    · rfl
    · exact absurd (h3.trans g3.symm) sh.2.1
    · exact absurd (g3.trans h3.symm) sh.2.1
    · rfl
  · have eo : ∀ x, edgeOf (opposite x) = edgeOf x := edge_opp
    rcases h3 with ⟨h3, rfl⟩ | ⟨h3, rfl⟩ <;> rcases g3 with ⟨g3, rfl⟩ | ⟨g3, rfl⟩
    · exact absurd (h3.trans g3.symm) (S.tails h g h1 g1 h2 g2 he)
    · exact C.linkS simple V (a := opposite h) (b := opposite g) (by rw [eo]; exact h2) (by rw [eo]; exact g2) (by rw [eo, eo]; exact he) (by rw [sg.2.2.1, ← sh.1, h3, g3])
    · exact (C.linkS simple V (a := opposite g) (b := opposite h) (by rw [eo]; exact g2) (by rw [eo]; exact h2) (by rw [eo, eo]; exact Ne.symm he) (by rw [sh.2.2.1, ← sg.1, h3, g3])).symm
    · exact absurd (h3.trans g3.symm) (S.heads h g h1 g1 h2 g2 he)

theorem CutFacts.gate_at (simple : SimpleSource st.m0 o) (V : SplitOf d st.m0 base (2 * c.m0.nE) (o.polygons.take o.smCount) m1 polys1 ver orig) (S : OneSide st.m0 base c.m0.nE A) {x w : Nat}
    (a : GateAt st.m0 m1 c.m0.nE ver A x w) : gate st.m0 m1 c.m0.nE ver A x = w := by
  have ex : ∃ w, GateAt st.m0 m1 c.m0.nE ver A x w := ⟨w, a⟩
  unfold gate
  rw [dif_pos ex]
  exact C.gate_one simple V S ex.choose_spec a

theorem CutFacts.gate_ends (simple : SimpleSource st.m0 o) (V : SplitOf d st.m0 base (2 * c.m0.nE) (o.polygons.take o.smCount) m1 polys1 ver orig) (S : OneSide st.m0 base c.m0.nE A) {h : Nat}
    (hh : A h) (hc : edgeOf h < c.m0.nE) : gate st.m0 m1 c.m0.nE ver A (src st.m0 h) = m1.target (ver (opposite h)) ∧ gate st.m0 m1 c.m0.nE ver A (st.m0.target h) = src m1 (ver (opposite h)) :=
  ⟨C.gate_at simple V S ⟨h, hh, hc, .inl ⟨rfl, rfl⟩⟩, C.gate_at simple V S ⟨h, hh, hc, .inr ⟨rfl, rfl⟩⟩⟩

/-- The vertex is a version of the point. -/
theorem CutFacts.gate_orig (V : SplitOf d st.m0 base (2 * c.m0.nE) (o.polygons.take o.smCount) m1 polys1 ver orig) {x w : Nat} (a : GateAt st.m0 m1 c.m0.nE ver A x w) :
    orig w = x ∧ base ≤ w ∧ w < m1.nV := by
  have hr := C.F.G.divided.valid
  obtain ⟨h, h1, h2, h3⟩ := a
  have sh := src_of hr (C.liveH h2)
  have ho : OfSource o (opposite h) := C.F.cut_source (by rw [edge_opp]; exact h2)
  obtain ⟨e1, e2⟩ := V.ends _ ho
  have hl := V.live _ ho
  have ce := C.F.cut_ends h2
  have p1 : Plain d m1 := ⟨V.mesh.1, V.mesh.2.2.1, V.mesh.2.2.2.1, V.mesh.2.1, V.mesh.2.2.2.2⟩
  have hle := (p1.liveH _).1 hl
  obtain ⟨-, -, -, t1, t2⟩ := p1.ends hle
  have hbn : base ≤ st.m0.nV := by
    have h1 := C.F.G.ready.total
    have h2 := C.F.G.divided.same.1
    omega
  have go : ∀ w, w < m1.nV → orig w = x → base ≤ x → orig w = x ∧ base ≤ w ∧ w < m1.nV := by
    intro w h3 h4 h5
    refine ⟨h4, ?_, h3⟩
    by_contra hlt
    rw [V.kept.2 w (by omega)] at h4
    omega
  rcases h3 with ⟨h3, rfl⟩ | ⟨h3, rfl⟩
  · exact go _ t1 (by rw [e2, ← sh.1, h3]) (by omega)
  · exact go _ t2 (by rw [e1, sh.2.2.1, h3]) (by omega)

/-- The ends of a cut edge are on different edges of the input meshes. -/
theorem CutFacts.interior {E : Stitch.Env P} (hm : E.m0 = st.m0) (hb : E.base = base) (hreg : E.reg = reg) {h : Nat} (hc : edgeOf h < c.m0.nE) : Stitch.interior E h = some true := by
  have hr := C.F.G.divided.valid
  obtain ⟨f, -, -, hf⟩ := C.cutIn _ hc
  have ap := C.F.G.apart f _ hf
  have kn : ∀ v, EndsIn c.m0 (edgeOf h) v → (reg[v - base]?).isSome := C.F.X.known f _ hf
  have i1 := joins_endsIn (C.F.G.joins hf)
  obtain ⟨a, ha⟩ := Option.isSome_iff_exists.1 (kn _ i1.1)
  obtain ⟨b, hb'⟩ := Option.isSome_iff_exists.1 (kn _ i1.2)
  unfold Stitch.interior
  rw [hm, hb, hreg, ha, Option.bind_some, hb', Option.map_some]
  have hne : a.1 ≠ b.1 := by
    intro e
    have kept := C.F.G.divided.kept (edgeOf h) hc
    rw [← kept.2.1, ← kept.2.2] at ap
    rcases ends_of hr (C.liveH hc) with ⟨e1, e2⟩ | ⟨e1, e2⟩
    · rw [e1, e2, ha, hb'] at ap; simp [e] at ap
    · rw [e1, e2, ha, hb'] at ap; simp [e] at ap
  simp [hne]

/-- A patch can be stitched. -/
theorem CutFacts.sheet (simple : SimpleSource st.m0 o) (V : SplitOf d st.m0 base (2 * c.m0.nE) (o.polygons.take o.smCount) m1 polys1 ver orig) (S : OneSide st.m0 base c.m0.nE A)
    {ihe : Nat → Option Nat} (hihe : ∀ h, edgeOf h < c.m0.nE → ihe h = some (ver h)) {E : Stitch.Env P} (hm : E.m0 = st.m0) (hbase : E.base = base) (hreg : E.reg = reg) (hie : E.ihe = ihe)
    (hfix : E.fixed = []) {l : List Nat} {k : Nat} (hA : ∀ h, Stitch.Of E l h ↔ A h) (nodup : l.Nodup)
    (hpoly : ∀ j ∈ l, ∃ p, E.two.polys[j]? = some p ∧ Round st.m0 p ∧ p.Nodup ∧ ∀ h n, Follows p h n → src st.m0 h < base → base ≤ st.m0.target h → edgeOf n < c.m0.nE)
    (once : ∀ i ∈ l, ∀ j ∈ l, ∀ p q h, E.two.polys[i]? = some p → E.two.polys[j]? = some q → h ∈ p → h ∈ q → i = j)
    (user : ∀ h, c.m0.nE ≤ edgeOf h → A h → ∃ u, Stitch.userIn E k (opposite h) = some u ∧ ∀ j, u = some j ↔ j ∈ l ∧ ∃ p, E.two.polys[j]? = some p ∧ opposite h ∈ p) :
    Stitch.Sheet d E m1 k (2 * c.m0.nE) l (gate st.m0 m1 c.m0.nE ver A) := by
  have hr := C.F.G.divided.valid
  have hbn : base ≤ st.m0.nV := by
    have h1 := C.F.G.ready.total
    have h2 := C.F.G.divided.same.1
    omega
  have gl : ∀ h, A h → base ≤ st.m0.target h → GateAt st.m0 m1 c.m0.nE ver A (st.m0.target h) (gate st.m0 m1 c.m0.nE ver A (st.m0.target h)) := by
    intro h hh hb
    by_cases hc : edgeOf h < c.m0.nE
    · rw [(C.gate_ends simple V S hh hc).2]
      exact ⟨h, hh, hc, .inr ⟨rfl, rfl⟩⟩
    · obtain ⟨j, jl, p, hp, hm'⟩ := (hA h).2 hh
      obtain ⟨p', p1, R, -, ah⟩ := hpoly j jl
      rw [hp] at p1
      obtain rfl := Option.some.inj p1
      obtain ⟨y, y1, y2⟩ := follows_next R.cyclic hm'
      have hs : src st.m0 h < base := by
        by_contra hs
        exact hc ((S.ends h hh).2 ⟨by omega, hb⟩)
      have hy := ah h y y1 hs hb
      have hyA : A y := (hA y).1 ⟨j, jl, p, hp, y1.mem.2⟩
      rw [y2, (C.gate_ends simple V S hyA hy).1]
      exact ⟨y, hyA, hy, .inl ⟨rfl, rfl⟩⟩
  refine ⟨by rw [hm]; exact hr, by rw [hbase]; exact Nat.le_trans hbn V.kept.1, ?_, nodup, ?_, once, ?_, ?_, ?_, ?_, ?_, ?_, ?_, hfix⟩
  · intro v hv
    rw [hbase] at hv
    rw [hm, V.places v (Nat.lt_of_lt_of_le (by omega) V.kept.1), V.kept.2 v (by omega)]
  · intro j hj
    obtain ⟨p, p1, p2, p3, -⟩ := hpoly j hj
    rw [hm]
    exact ⟨p, p1, p2, p3, fun h hh => S.live h ((hA h).1 ⟨j, hj, p, p1, hh⟩)⟩
  · intro h hn hh
    exact user h (by unfold edgeOf; omega) ((hA h).1 hh)
  · intro h hh
    rw [hm, hbase, cut_lt]
    exact S.ends h ((hA h).1 hh)
  · intro h hh hc
    exact C.interior hm hbase hreg (cut_lt.1 hc)
  · intro h hh hc
    have hc' := cut_lt.1 hc
    have ho : OfSource o (opposite h) := C.F.cut_source (by rw [edge_opp]; exact hc')
    have hl := V.live _ ho
    have p1 : Plain d m1 := ⟨V.mesh.1, V.mesh.2.2.1, V.mesh.2.2.2.1, V.mesh.2.1, V.mesh.2.2.2.2⟩
    obtain ⟨g1, g2⟩ := C.gate_ends simple V S ((hA h).1 hh) hc'
    refine ⟨opposite (ver (opposite h)), ?_, ?_, ?_, ?_⟩
    · unfold Stitch.atCut
      rw [hie, hihe _ (by rw [edge_opp]; exact hc')]; rfl
    · rw [edge_opp]; exact (p1.liveH _).1 hl
    · rw [hm, g1, (src_of V.mesh.1 hl).2.2.1]
    · rw [hm, g2, ← (src_of V.mesh.1 hl).1]
  · intro j hj p hp h y hf h1 h2
    obtain ⟨p', p1, -, -, ah⟩ := hpoly j hj
    rw [hp] at p1
    obtain rfl := Option.some.inj p1
    rw [hm, hbase] at h1 h2
    exact cut_lt.2 (ah h y hf h1 h2)
  · intro h hh hb
    rw [hm, hbase] at *
    exact (C.gate_orig V (gl h ((hA h).1 hh) hb)).2
  · intro h h' hh hh' hb hb' e
    rw [hm] at *
    rw [hbase] at hb hb'
    rw [← (C.gate_orig V (gl h ((hA h).1 hh) hb)).1, ← (C.gate_orig V (gl h' ((hA h').1 hh') hb')).1, e]

end
end Mcut.Patches
