import Verif.Lemmas.C83All
import Verif.Lemmas.C83Colour
import Verif.Lemmas.C81
import Verif.Spec.C83

/-! Lemmas for C83: what the stitched mesh is. -/
namespace Mcut.Patches
open Mcut.Hmesh Mcut.Extract Mcut.Registry Mcut.CutEdges Mcut.Boundary Mcut.Trace Mcut.Split Mcut.CutPaths
variable {P : Type} {d : P} {ps : Mesh P} {base : Nat} {pts : Nat → List Nat} {sort : Nat → Nat → List Nat → List Nat} {edges : List Nat} {c : CutEdges.St P} {st : Boundary.St P}
  {pieces : Nat → List Nat} {reg : List (Nat × Nat)} {smV smF n : Nat} {o : Out} {T : Nat → List Nat} {poly : Nat → List (List Nat)}

theorem inSheet_iff {E : Stitch.Env P} {polys pats : List (List Nat)} (hp : E.two.polys = polys) (k h : Nat) : Stitch.InSheet polys pats k h ↔ Stitch.Of E (pats.getD k []) h := by
  subst hp
  constructor
  · rintro ⟨l, j, p, h1, h2, h3, h4⟩
    refine ⟨j, ?_, p, h3, h4⟩
    rw [List.getD_eq_getElem?_getD, h1]; exact h2
  · rintro ⟨j, h2, p, h3, h4⟩
    rw [List.getD_eq_getElem?_getD] at h2
    cases hl : pats[k]? with
    | none => rw [hl] at h2; cases h2
    | some l => rw [hl] at h2; exact ⟨l, j, p, hl, h2, h3, h4⟩

section
variable (C : CutFacts d ps smV smF base pts sort edges c st pieces reg n o T poly) {m1 : Mesh P} {polys1 : List (List Nat)} {ver orig : Nat → Nat}
include C

/-- Original vertices of polygons of the source mesh are vertices of the source mesh. -/
theorem CutFacts.lowS {x : Nat} (hx : In (o.polygons.take o.smCount) x) : (st.m0.target x < base → st.m0.target x < smV) ∧ (src st.m0 x < base → src st.m0 x < smV) := by
  obtain ⟨p, hp, hx⟩ := hx
  by_cases hc : edgeOf x < c.m0.nE
  · have := C.F.cut_ends hc
    omega
  · obtain ⟨f, f1, f2, f3⟩ := C.faceS hp
    obtain ⟨h, p1, p2, p3⟩ := C.partS f2 f3 hx (by omega)
    obtain ⟨q1, -, q3, q4⟩ := face_ends C.F.G.ready.psOk p1.1 p2
    have a := C.own f _ q1 q4
    have b := C.own f _ q1 q3
    refine ⟨fun hb => ?_, fun hb => ?_⟩
    · rw [(C.F.old_part p1).2 hb]; omega
    · rw [(C.F.old_part p1).1 hb]; omega

/-- The vertex for a point is a version of it. -/
theorem CutFacts.sheet_orig (simple : SimpleSource st.m0 o) (V : SplitOf d st.m0 base (2 * c.m0.nE) (o.polygons.take o.smCount) m1 polys1 ver orig) {E : Stitch.Env P} (hm : E.m0 = st.m0) (hbase : E.base = base)
    {l : List Nat} {k : Nat} (S : OneSide st.m0 base c.m0.nE (Stitch.Of E l)) (Sh : Stitch.Sheet d E m1 k (2 * c.m0.nE) l (gate st.m0 m1 c.m0.nE ver (Stitch.Of E l))) {h : Nat} (hh : Stitch.Of E l h)
    (hb : base ≤ st.m0.target h) : orig (gate st.m0 m1 c.m0.nE ver (Stitch.Of E l) (st.m0.target h)) = st.m0.target h := by
  have gl : GateAt st.m0 m1 c.m0.nE ver (Stitch.Of E l) (st.m0.target h) (gate st.m0 m1 c.m0.nE ver (Stitch.Of E l) (st.m0.target h)) := by
    by_cases hc : edgeOf h < c.m0.nE
    · rw [(C.gate_ends simple V S hh hc).2]
      exact ⟨h, hh, hc, .inr ⟨rfl, rfl⟩⟩
    · obtain ⟨j, jl, p, hp, hm'⟩ := id hh
      obtain ⟨p', p1, R, -, -⟩ := Sh.poly j jl
      rw [hp] at p1
      obtain rfl := Option.some.inj p1
      rw [hm] at R
      obtain ⟨y, y1, y2⟩ := follows_next R.cyclic hm'
      have hs : src st.m0 h < base := by
        by_contra hs
        exact hc ((S.ends h hh).2 ⟨by omega, hb⟩)
      have hy := cut_lt.1 (Sh.ahead j jl p hp h y y1 (by rw [hm, hbase]; exact hs) (by rw [hm, hbase]; exact hb))
      have hyA : Stitch.Of E l y := ⟨j, jl, p, hp, y1.mem.2⟩
      rw [y2, (C.gate_ends simple V S hyA hy).1]
      exact ⟨y, hyA, hy, .inl ⟨rfl, rfl⟩⟩
  exact (C.gate_orig V gl).1

/-- The description of the result, for the patches `ks`. -/
theorem CutFacts.stitchedOf (hle : smV ≤ base) (cutOne : OneCut c) (simple : SimpleSource st.m0 o) (V : SplitOf d st.m0 base (2 * c.m0.nE) (o.polygons.take o.smCount) m1 polys1 ver orig)
    {ihe : Nat → Option Nat} (hihe : ∀ h, edgeOf h < c.m0.nE → ihe h = some (ver h)) {two : Two} {nn : Nat} {ks : List Nat}
    (hccw : ∀ k ∈ ks, k % nn = k ↔ k < nn)
    (hs : ∀ k ∈ ks, Stitch.Sheet d (stitchEnv st base reg ihe two o nn) m1 k (2 * c.m0.nE) (two.patches.getD k []) (gate st.m0 m1 c.m0.nE ver (Stitch.Of (stitchEnv st base reg ihe two o nn) (two.patches.getD k []))))
    (os : ∀ k ∈ ks, OneSide st.m0 base c.m0.nE (Stitch.Of (stitchEnv st base reg ihe two o nn) (two.patches.getD k [])))
    (k1 : ∀ k ∈ ks, ∀ k' ∈ ks, ∀ h, edgeOf h < c.m0.nE → Stitch.InSheet two.polys two.patches k h → Stitch.InSheet two.polys two.patches k' h → k = k')
    (k2 : ∀ k ∈ ks, ∀ k' ∈ ks, k < nn → k' < nn → ∀ h h', c.m0.nE ≤ edgeOf h → Stitch.InSheet two.polys two.patches k h → Stitch.InSheet two.polys two.patches k' h' → (h' = h ∨ h' = opposite h) → k = k')
    (low : ∀ k ∈ ks, ∀ h, Stitch.InSheet two.polys two.patches k h → smV ≤ st.m0.target h ∧ smV ≤ src st.m0 h)
    {s : Stitch.St P} {pl : Nat → Nat → Option Nat} {work : List (Nat × Nat)}
    (W : Stitch.Stitched d (stitchEnv st base reg ihe two o nn) m1 polys1 (fun k => two.patches.getD k []) (fun k => gate st.m0 m1 c.m0.nE ver (Stitch.Of (stitchEnv st base reg ihe two o nn) (two.patches.getD k []))) ks s pl work) :
    ∃ at' half, Stitch.StitchedOf d st.m0 base (2 * c.m0.nE) nn (o.polygons.take o.smCount) two.polys two.patches ks m1 polys1 ver orig s.m s.polys s.faces s.cmv at' half work := by
  have hr := C.F.G.divided.valid
  have hbn : base ≤ st.m0.nV := by
    have h1 := C.F.G.ready.total
    have h2 := C.F.G.divided.same.1
    omega
  have p1 : Plain d m1 := ⟨V.mesh.1, V.mesh.2.2.1, V.mesh.2.2.2.1, V.mesh.2.1, V.mesh.2.2.2.2⟩
  have hv1 := V.kept.1
  have W' := W.grown
  generalize hE : stitchEnv st base reg ihe two o nn = E at *
  have e1 : E.m0 = st.m0 := by rw [← hE]; rfl
  have e2 : E.base = base := by rw [← hE]; rfl
  have e3 : E.two = two := by rw [← hE]; rfl
  have e4 : E.ccw = nn := by rw [← hE]; rfl
  have e5 : E.ihe = ihe := by rw [← hE]; rfl
  have iff : ∀ k h, Stitch.InSheet two.polys two.patches k h ↔ Stitch.Of E (two.patches.getD k []) h := fun k h => inSheet_iff (by rw [e3]) k h
  let X : Nat → Nat → Nat := fun k => gate st.m0 m1 c.m0.nE ver (Stitch.Of E (two.patches.getD k []))
  let at' : Nat → Nat → Nat := fun k v => if v < base then (pl k v).getD 0 else X k v
  have over : ∀ k v w, Stitch.Over E (X k) (pl k) v w → w = at' k v := by
    intro k v w h
    unfold Stitch.Over at h
    rw [e2] at h
    show w = if v < base then (pl k v).getD 0 else X k v
    by_cases hv : v < base
    · rw [if_pos hv] at h ⊢
      rw [h]; rfl
    · rw [if_neg hv] at h ⊢
      exact h
  obtain ⟨news, hn1, hn2⟩ := W.polys
  -- every halfedge has an image
  have ex : ∀ k h, ∃ g, k ∈ ks → Stitch.InSheet two.polys two.patches k h → Stitch.Img E (X k) s.m (pl k) h g := by
    intro k h
    by_cases hk : k ∈ ks ∧ Stitch.InSheet two.polys two.patches k h
    · obtain ⟨hk, hh⟩ := hk
      obtain ⟨j, jl, p, hp, hm⟩ := (iff k h).1 hh
      have hw : (k, j) ∈ work := W.all.mem_iff.2 (List.mem_flatMap.2 ⟨k, hk, List.mem_map.2 ⟨j, jl, rfl⟩⟩)
      obtain ⟨i, hi, hie⟩ := List.getElem_of_mem hw
      have hlen := hn2.length_eq
      have Q := (List.forall₂_iff_get.1 hn2).2 i hi (by omega)
      simp only [List.get_eq_getElem, hie] at Q
      obtain ⟨p', r, q1, q2, q3⟩ := Q
      rw [hp] at q1; obtain rfl := Option.some.inj q1
      have hmr : h ∈ p.rotate r := List.mem_rotate.2 hm
      obtain ⟨b, hb, hbe⟩ := List.getElem_of_mem hmr
      have hl2 := q3.length_eq
      have Q := (List.forall₂_iff_get.1 q3).2 b hb (by omega)
      simp only [List.get_eq_getElem, hbe] at Q
      exact ⟨_, fun _ _ => Q⟩
    · exact ⟨0, fun a b => absurd ⟨a, b⟩ hk⟩
  choose half hhalf using ex
  have img : ∀ k ∈ ks, ∀ h, Stitch.InSheet two.polys two.patches k h → edgeOf (half k h) < s.m.nE ∧ src s.m (half k h) = at' k (src st.m0 h) ∧ s.m.target (half k h) = at' k (st.m0.target h) := by
    intro k hk h hh
    obtain ⟨a, b, e⟩ := hhalf k h hk hh
    exact ⟨a, by rw [← e1]; exact over _ _ _ b, by rw [← e1]; exact over _ _ _ e⟩
  have uniq : ∀ k ∈ ks, ∀ h, Stitch.InSheet two.polys two.patches k h → ∀ g, edgeOf g < s.m.nE → src s.m g = at' k (src st.m0 h) → s.m.target g = at' k (st.m0.target h) → half k h = g := by
    intro k hk h hh g hg h1 h2
    obtain ⟨a, b, e⟩ := img k hk h hh
    exact W.single _ _ a hg (by rw [b, h1]) (by rw [e, h2])
  -- facts about the halfedges
  have lv : ∀ k ∈ ks, ∀ h, Stitch.InSheet two.polys two.patches k h → LiveH st.m0 h := fun k hk h hh => (os k hk).live h ((iff k h).1 hh)
  have ends : ∀ k ∈ ks, ∀ h, Stitch.InSheet two.polys two.patches k h → (edgeOf h < c.m0.nE ↔ base ≤ src st.m0 h ∧ base ≤ st.m0.target h) := fun k hk h hh => (os k hk).ends h ((iff k h).1 hh)
  have prev : ∀ k ∈ ks, ∀ h, Stitch.InSheet two.polys two.patches k h → ∃ g, Stitch.InSheet two.polys two.patches k g ∧ st.m0.target g = src st.m0 h := by
    intro k hk h hh
    obtain ⟨j, jl, p, hp, hm⟩ := (iff k h).1 hh
    obtain ⟨p', q1, R, -, -⟩ := (hs k hk).poly j jl
    rw [hp] at q1; obtain rfl := Option.some.inj q1
    rw [e1] at R
    obtain ⟨w, w1, w2⟩ := follows_prev R.cyclic hm
    exact ⟨w, (iff k w).2 ⟨j, jl, p, hp, w1.mem.1⟩, w2⟩
  have point : ∀ k ∈ ks, ∀ h, Stitch.InSheet two.polys two.patches k h → base ≤ st.m0.target h → base ≤ at' k (st.m0.target h) ∧ at' k (st.m0.target h) < m1.nV ∧ orig (at' k (st.m0.target h)) = st.m0.target h := by
    intro k hk h hh hb
    have hat : at' k (st.m0.target h) = X k (st.m0.target h) := if_neg (by omega)
    rw [hat]
    have a := (hs k hk).point h ((iff k h).1 hh) (by rw [e1, e2]; exact hb)
    rw [e1, e2] at a
    exact ⟨a.1, a.2, C.sheet_orig simple V e1 e2 (os k hk) (hs k hk) ((iff k h).1 hh) hb⟩
  have same : ∀ k ∈ ks, k < nn → ∀ v, v < base → at' k v = v := by
    intro k hk hkn v hv
    have := W.same k hk (by rw [e4]; exact (hccw k hk).2 hkn)
    show (if v < base then (pl k v).getD 0 else X k v) = v
    rw [if_pos hv, this, e2]
    simp only [if_pos hv, Option.getD_some]
  have known : ∀ k ∈ ks, ∀ h, Stitch.InSheet two.polys two.patches k h → st.m0.target h < base → pl k (st.m0.target h) = some (at' k (st.m0.target h)) := by
    intro k hk h hh hb
    obtain ⟨-, -, e⟩ := hhalf k h hk hh
    unfold Stitch.Over at e
    rw [e1, e2, if_pos hb] at e
    rw [e]
    show _ = some (if st.m0.target h < base then (pl k (st.m0.target h)).getD 0 else _)
    rw [if_pos hb, e]; rfl
  have fresh : ∀ k ∈ ks, nn ≤ k → ∀ h, Stitch.InSheet two.polys two.patches k h → st.m0.target h < base → m1.nV ≤ at' k (st.m0.target h) := by
    intro k hk hkn h hh hb
    exact W.fresh k hk (by rw [e4]; intro h0; have := (hccw k hk).1 h0; omega) _ _ (known k hk h hh hb)
  have copies : ∀ k ∈ ks, nn ≤ k → ∀ h, Stitch.InSheet two.polys two.patches k h → st.m0.target h < base → m1.nV ≤ at' k (st.m0.target h) ∧
      ∀ k' ∈ ks, ∀ h', Stitch.InSheet two.polys two.patches k' h' → at' k' (st.m0.target h') = at' k (st.m0.target h) → k' = k ∧ st.m0.target h' = st.m0.target h := by
    intro k hk hkn h hh hb
    have a := fresh k hk hkn h hh hb
    refine ⟨a, fun k' hk' h' hh' e => ?_⟩
    have hb' : st.m0.target h' < base := by
      by_contra hc
      have := (point k' hk' h' hh' (by omega)).2.1
      omega
    have hkn' : nn ≤ k' := by
      by_contra hc
      have := same k' hk' (by omega) _ hb'
      omega
    have i1 := known k' hk' h' hh' hb'
    rw [e] at i1
    exact W.inj k' hk' k hk (by rw [e4]; intro h0; have := (hccw k' hk').1 h0; omega) (by rw [e4]; intro h0; have := (hccw k hk).1 h0; omega) _ _ _ i1 (known k hk h hh hb)
  -- along the cut
  have cutS : ∀ h, edgeOf h < c.m0.nE → OfSource o (opposite h) := fun h hc => C.F.cut_source (by rw [edge_opp]; exact hc)
  have glueS : ∀ k ∈ ks, ∀ h, Stitch.InSheet two.polys two.patches k h → edgeOf h < c.m0.nE → half k h = opposite (ver (opposite h)) := by
    intro k hk h hh hc
    have hl := V.live _ (cutS h hc)
    obtain ⟨g, g1, g2, g3, g4⟩ := (hs k hk).glue h ((iff k h).1 hh) (cut_lt.2 hc)
    obtain ⟨c1, c2⟩ := (ends k hk h hh).1 hc
    have hg : g = opposite (ver (opposite h)) := by
      unfold Stitch.atCut at g1
      rw [e5, hihe _ (by rw [edge_opp]; exact hc)] at g1
      exact (Option.some.inj g1).symm
    rw [← hg]
    have ne := W'.nE
    refine uniq k hk h hh g (by omega) ?_ ?_
    · rw [(W'.ends g g2).1, g3, e1]
      exact (if_neg (by omega)).symm
    · rw [(W'.ends g g2).2, g4, e1]
      exact (if_neg (by omega)).symm
  -- the vertex of "m0" for a vertex of an as-is patch
  have back : ∀ k ∈ ks, k < nn → ∀ h, Stitch.InSheet two.polys two.patches k h → (if at' k (st.m0.target h) < base then at' k (st.m0.target h) else orig (at' k (st.m0.target h))) = st.m0.target h := by
    intro k hk hkn h hh
    by_cases hb : st.m0.target h < base
    · rw [same k hk hkn _ hb, if_pos hb]
    · obtain ⟨a, -, b⟩ := point k hk h hh (by omega)
      rw [if_neg (by omega)]; exact b
  -- two vertices of patches
  have inj : ∀ k ∈ ks, ∀ k' ∈ ks, (k < nn ∧ k' < nn ∨ nn ≤ k ∧ nn ≤ k') → ∀ h h', Stitch.InSheet two.polys two.patches k h → Stitch.InSheet two.polys two.patches k' h' →
      at' k (st.m0.target h) = at' k' (st.m0.target h') → st.m0.target h = st.m0.target h' := by
    intro k hk k' hk' hkk h h' hh hh' e
    rcases hkk with ⟨a, b⟩ | ⟨a, b⟩
    · rw [← back k hk a h hh, ← back k' hk' b h' hh', e]
    · by_cases hb : st.m0.target h < base
      · exact ((copies k hk a h hh hb).2 k' hk' h' hh' e.symm).2.symm
      · by_cases hb' : st.m0.target h' < base
        · exact ((copies k' hk' b h' hh' hb').2 k hk h hh e).2
        · rw [← (point k hk h hh (by omega)).2.2, ← (point k' hk' h' hh' (by omega)).2.2, e]
  have kind : ∀ k ∈ ks, ∀ h, Stitch.InSheet two.polys two.patches k h → edgeOf h < c.m0.nE ∨ src st.m0 h < base ∨ st.m0.target h < base := by
    intro k hk h hh
    have := ends k hk h hh
    omega
  -- halfedges with the same ends
  have same_half : ∀ k ∈ ks, ∀ k' ∈ ks, (k < nn ∧ k' < nn ∨ nn ≤ k ∧ nn ≤ k') → ∀ h h', Stitch.InSheet two.polys two.patches k h → Stitch.InSheet two.polys two.patches k' h' →
      half k h = half k' h' → h = h' := by
    intro k hk k' hk' hkk h h' hh hh' e
    obtain ⟨-, a1, a2⟩ := img k hk h hh
    obtain ⟨-, b1, b2⟩ := img k' hk' h' hh'
    rw [e] at a1 a2
    obtain ⟨g, g1, g2⟩ := prev k hk h hh
    obtain ⟨g', g1', g2'⟩ := prev k' hk' h' hh'
    refine C.single0 cutOne (lv k hk h hh) (lv k' hk' h' hh') ?_ ?_ (kind k hk h hh) (kind k' hk' h' hh')
    · rw [← g2, ← g2']
      refine inj k hk k' hk' hkk g g' g1 g1' ?_
      rw [g2, g2', ← a1, ← b1]
    · exact inj k hk k' hk' hkk h h' hh hh' (by rw [← a2, ← b2])
  have opp_half : ∀ k ∈ ks, ∀ k' ∈ ks, (k < nn ∧ k' < nn ∨ nn ≤ k ∧ nn ≤ k') → ∀ h h', Stitch.InSheet two.polys two.patches k h → Stitch.InSheet two.polys two.patches k' h' →
      half k' h' = opposite (half k h) → h' = opposite h := by
    intro k hk k' hk' hkk h h' hh hh' e
    obtain ⟨a0, a1, a2⟩ := img k hk h hh
    obtain ⟨-, b1, b2⟩ := img k' hk' h' hh'
    have so := src_of W.plain.reach ((W.plain.liveH _).2 a0)
    have s0 := src_of hr (lv k hk h hh)
    rw [e] at b1 b2
    rw [so.2.2.1, a2] at b1
    rw [← so.1, a1] at b2
    obtain ⟨g, g1, g2⟩ := prev k hk h hh
    obtain ⟨g', g1', g2'⟩ := prev k' hk' h' hh'
    refine C.single0 cutOne (lv k' hk' h' hh') s0.2.2.2.2 ?_ ?_ (kind k' hk' h' hh') ?_
    · rw [s0.2.2.1, ← g2']
      exact (inj k hk k' hk' hkk h g' hh g1' (by rw [g2', ← b1])).symm
    · rw [← s0.1, ← g2]
      exact (inj k hk k' hk' hkk g h' g1 hh' (by rw [g2, ← b2])).symm
    · rw [edge_opp, s0.2.2.1, ← s0.1]
      have := kind k hk h hh
      omega
  -- an original end of a halfedge that is not on the cut
  have origEnd : ∀ k ∈ ks, ∀ h, Stitch.InSheet two.polys two.patches k h → c.m0.nE ≤ edgeOf h → ∃ g w, Stitch.InSheet two.polys two.patches k g ∧ st.m0.target g < base ∧ w = at' k (st.m0.target g) ∧
      (w = src s.m (half k h) ∨ w = s.m.target (half k h)) := by
    intro k hk h hh hc
    obtain ⟨-, a1, a2⟩ := img k hk h hh
    have := kind k hk h hh
    rcases this with h0 | h0 | h0
    · omega
    · obtain ⟨g, g1, g2⟩ := prev k hk h hh
      exact ⟨g, _, g1, by omega, rfl, .inl (by rw [a1, g2])⟩
    · exact ⟨h, _, hh, h0, rfl, .inr a2.symm⟩
  have corner : ∀ k ∈ ks, ∀ h, Stitch.InSheet two.polys two.patches k h → ∀ w, (w = src s.m (half k h) ∨ w = s.m.target (half k h)) → ∃ g, Stitch.InSheet two.polys two.patches k g ∧ w = at' k (st.m0.target g) := by
    intro k hk h hh w hw
    obtain ⟨-, a1, a2⟩ := img k hk h hh
    rcases hw with rfl | rfl
    · obtain ⟨g, g1, g2⟩ := prev k hk h hh
      exact ⟨g, g1, by rw [a1, g2]⟩
    · exact ⟨h, hh, a2⟩
  have half_cases' : ∀ a b, edgeOf a = edgeOf b → b = a ∨ b = opposite a := by
    intro a b h
    unfold edgeOf at h; unfold opposite; split <;> omega
  -- ends of halfedges with the same edge
  have endsEq : ∀ a b, edgeOf a < s.m.nE → edgeOf a = edgeOf b → ∀ w, (w = src s.m a ∨ w = s.m.target a) → (w = src s.m b ∨ w = s.m.target b) := by
    intro a b ha hab w hw
    rcases half_cases' a b hab with rfl | rfl
    · exact hw
    · have so := src_of W.plain.reach ((W.plain.liveH _).2 ha)
      rw [so.2.2.1, ← so.1]
      exact hw.symm
  -- halfedges of one kind that share an edge, off the cut
  have share : ∀ k ∈ ks, ∀ k' ∈ ks, ∀ h h', Stitch.InSheet two.polys two.patches k h → Stitch.InSheet two.polys two.patches k' h' → edgeOf (half k h) = edgeOf (half k' h') → c.m0.nE ≤ edgeOf h →
      (k < nn ∧ k' < nn ∨ nn ≤ k ∧ nn ≤ k' ∧ k = k') := by
    intro k hk k' hk' h h' hh hh' e hc
    obtain ⟨g, w, g1, g2, g3, g4⟩ := origEnd k hk h hh hc
    obtain ⟨g', q1, q2⟩ := corner k' hk' h' hh' w (endsEq _ _ (img k hk h hh).1 e w g4)
    by_cases hkn : k < nn
    · left
      refine ⟨hkn, ?_⟩
      by_contra hc'
      have hw : w < base := by rw [g3, same k hk hkn _ g2]; exact g2
      by_cases hb : st.m0.target g' < base
      · have := fresh k' hk' (by omega) g' q1 hb
        omega
      · have := (point k' hk' g' q1 (by omega)).1
        omega
    · have := ((copies k hk (by omega) g g1 g2).2 k' hk' g' q1 (by rw [← q2, g3])).1
      right
      omega
  refine ⟨at', half, ?_⟩
  refine ⟨⟨W.plain.reach, W.plain.nF, W.plain.vRem, W.plain.eRem, W.plain.fRem⟩, ⟨W'.nV, W'.pos, fun h hl => ?_⟩, W.all, ⟨news, hn1, ?_⟩, ?_, ?_, ?_, same, copies, point, ?_, ?_, ?_, ?_, fun g g' h1 h2 h3 h4 => W.single g g' ((W.plain.liveH g).1 h1) ((W.plain.liveH g').1 h2) h3 h4, ?_⟩
  · have h1 := (p1.liveH h).1 hl
    exact ⟨(W.plain.liveH h).2 (Nat.lt_of_lt_of_le h1 W'.nE), W'.ends h h1⟩
  · rw [List.forall₂_iff_get]
    refine ⟨hn2.length_eq, fun i h1 h2 => ?_⟩
    obtain ⟨p, r, q1, q2, q3⟩ := (List.forall₂_iff_get.1 hn2).2 i h1 h2
    simp only [List.get_eq_getElem] at q1 q3 ⊢
    have hw : work[i] ∈ work := List.getElem_mem _
    obtain ⟨k, hk, hw⟩ := List.mem_flatMap.1 (W.all.mem_iff.1 hw)
    obtain ⟨j, jl, hj⟩ := List.mem_map.1 hw
    rw [← hj] at q1 q3 ⊢
    rw [e3] at q1
    refine ⟨p, p.rotate r, q1, ⟨p.length - r, ?_⟩, ?_⟩
    · rw [List.rotate_rotate, show r + (p.length - r) = p.length by omega, List.rotate_length]
    · refine List.ext_getElem (by rw [List.length_map]; exact q3.length_eq.symm) (fun b b1 b2 => ?_)
      rw [List.getElem_map]
      have hl2 := q3.length_eq
      have Q := (List.forall₂_iff_get.1 q3).2 b (by omega) b1
      simp only [List.get_eq_getElem] at Q
      have hin : Stitch.InSheet two.polys two.patches k (p.rotate r)[b] := (iff k _).2 ⟨j, jl, p, by rw [e3]; exact q1, List.mem_rotate.1 (List.getElem_mem _)⟩
      refine (uniq k hk _ hin _ Q.1 ?_ ?_).symm
      · rw [← e1]; exact over _ _ _ Q.2.1
      · rw [← e1]; exact over _ _ _ Q.2.2
  · intro i j
    rw [W.faces, List.mem_append, List.mem_reverse, or_comm]
    refine or_congr ?_ ?_
    · unfold sameFace
      simp only [List.mem_map, List.mem_range, Prod.mk.injEq]
      constructor
      · rintro ⟨a, a1, rfl, rfl⟩; exact ⟨a1, rfl⟩
      · rintro ⟨a1, rfl⟩; exact ⟨_, a1, rfl, rfl⟩
    · rw [List.mem_iff_getElem?]
      constructor
      · rintro ⟨a, ha⟩
        rw [List.getElem?_zip_eq_some] at ha
        obtain ⟨a1, a2⟩ := ha
        rw [List.getElem?_map, Option.map_eq_some_iff] at a2
        obtain ⟨x, x1, x2⟩ := a2
        have hlt := (List.getElem?_eq_some_iff.1 x1).1
        rw [List.getElem?_range' hlt] at a1
        have := Option.some.inj a1
        exact ⟨a, x, by omega, x1, x2.symm⟩
      · rintro ⟨a, x, rfl, x1, rfl⟩
        have hlt := (List.getElem?_eq_some_iff.1 x1).1
        refine ⟨a, ?_⟩
        rw [List.getElem?_zip_eq_some]
        exact ⟨by rw [List.getElem?_range' hlt]; simp, by rw [List.getElem?_map, x1]; rfl⟩
  · intro k hk h hh
    obtain ⟨a, b, e⟩ := img k hk h hh
    exact ⟨(W.plain.liveH _).2 a, b, e⟩
  · intro k hk h hh
    by_cases hb : st.m0.target h < base
    · have := W.old k hk _ _ (known k hk h hh hb)
      rw [e1] at this
      exact this.2
    · obtain ⟨-, a, b⟩ := point k hk h hh (by omega)
      exact ⟨Nat.lt_of_lt_of_le a W'.nV, by rw [W'.pos _ a, V.places _ a, b]⟩
  · intro k hk h hh hc
    exact ⟨cutS h (cut_lt.1 hc), glueS k hk h hh (cut_lt.1 hc)⟩
  · intro k hk h hh hh'
    obtain ⟨a, b, e⟩ := img k hk h hh
    have so := src_of W.plain.reach ((W.plain.liveH _).2 a)
    have s0 := src_of hr (lv k hk h hh)
    refine uniq k hk _ hh' _ (by rw [edge_opp]; exact a) ?_ ?_
    · rw [so.2.2.1, s0.2.2.1, e]
    · rw [← so.1, ← s0.1, b]
  · intro k hk k' hk' h h' hh hh' e
    by_cases hc : edgeOf h < c.m0.nE
    · by_cases hc' : edgeOf h' < c.m0.nE
      · have := e
        rw [glueS k hk h hh hc, glueS k' hk' h' hh' hc', edge_opp, edge_opp] at this
        rcases V.apart _ _ (cutS h hc) (cutS h' hc') this with h0 | ⟨-, h0⟩
        · have h1 : h' = h := by have := congrArg opposite h0; rw [opp_opp, opp_opp] at this; exact this.symm
          subst h1
          exact ⟨k1 k hk k' hk' _ hc hh hh', .inl rfl⟩
        · have : c.m0.nE ≤ edgeOf (opposite h) := by unfold edgeOf; omega
          rw [edge_opp] at this; omega
      · exfalso
        have hks := share k' hk' k hk h' h hh' hh e.symm (by omega)
        have hkk : k < nn ∧ k' < nn ∨ nn ≤ k ∧ nn ≤ k' := by omega
        have : edgeOf h' = edgeOf h := by
          rcases half_cases' _ _ e with h0 | h0
          · rw [same_half k hk k' hk' hkk h h' hh hh' h0.symm]
          · rw [opp_half k hk k' hk' hkk h h' hh hh' h0, edge_opp]
        omega
    · have hks := share k hk k' hk' h h' hh hh' e (by omega)
      have hkk : k < nn ∧ k' < nn ∨ nn ≤ k ∧ nn ≤ k' := by omega
      have hh2 : h' = h ∨ h' = opposite h := by
        rcases half_cases' _ _ e with h0 | h0
        · exact .inl (same_half k hk k' hk' hkk h h' hh hh' h0.symm).symm
        · exact .inr (opp_half k hk k' hk' hkk h h' hh hh' h0)
      refine ⟨?_, ?_⟩
      · rcases hks with ⟨a, b⟩ | ⟨-, -, e⟩
        · exact k2 k hk k' hk' a b h h' (by omega) hh hh' hh2
        · exact e
      · rcases hh2 with h0 | h0
        · exact .inl h0.symm
        · exact .inr ⟨h0, by unfold edgeOf at hc; omega⟩
  · intro k hk h g hh hg e
    have hlg := V.live g hg
    have hgl := (p1.liveH _).1 hlg
    by_cases hc : edgeOf h < c.m0.nE
    · refine ⟨cut_lt.2 hc, ?_⟩
      rw [glueS k hk h hh hc, edge_opp] at e
      rcases V.apart _ _ (cutS h hc) hg e with h0 | ⟨-, h0⟩
      · exact h0.symm
      · have : c.m0.nE ≤ edgeOf (opposite h) := by unfold edgeOf; omega
        rw [edge_opp] at this; omega
    · exfalso
      obtain ⟨x, w, x1, x2, x3, x4⟩ := origEnd k hk h hh (by omega)
      have hw := endsEq _ _ (img k hk h hh).1 e w x4
      rw [(W'.ends _ hgl).1, (W'.ends _ hgl).2] at hw
      have W1 := reachable_wf V.mesh.1
      have ht : m1.target (ver g) < m1.nV := (W1.half _ hlg).2.2.1.1
      have hsr : src m1 (ver g) < m1.nV := by
        have so := src_of V.mesh.1 hlg
        rw [so.1]
        exact (W1.half _ so.2.2.2.2).2.2.1.1
      have hwn : w < m1.nV := by rcases hw with h0 | h0 <;> rw [h0] <;> assumption
      by_cases hkn : k < nn
      · have hwe : w = st.m0.target x := by rw [x3, same k hk hkn _ x2]
        have hwb : w < base := by omega
        have ho : orig w = w := V.kept.2 w (by omega)
        obtain ⟨o1, o2⟩ := V.ends g hg
        obtain ⟨l1, l2⟩ := C.lowS hg
        have := (low k hk x x1).1
        rcases hw with h0 | h0
        · rw [← h0, ho] at o1
          have := l2 (by omega)
          omega
        · rw [← h0, ho] at o2
          have := l1 (by omega)
          omega
      · have := fresh k hk (by omega) x x1 x2
        omega
  · intro e he
    obtain ⟨k, hk, hpl⟩ := W.entries e he
    obtain ⟨a1, a2, a3⟩ := W.old k hk _ _ hpl
    rw [e1] at a3
    rw [e2] at a1
    have cases : (k < nn ∧ e.1 = e.2) ∨ (nn ≤ k ∧ m1.nV ≤ e.1) := by
      by_cases hkn : k < nn
      · have := W.same k hk (by rw [e4]; exact (hccw k hk).2 hkn)
        rw [this, e2] at hpl
        simp only [if_pos a1] at hpl
        exact .inl ⟨hkn, (Option.some.inj hpl).symm⟩
      · exact .inr ⟨by omega, W.fresh k hk (by rw [e4]; intro h0; have := (hccw k hk).1 h0; omega) _ _ hpl⟩
    refine ⟨a1, by omega, a2, a3, fun k' hk' h hh he' => ?_⟩
    by_cases hb : st.m0.target h < base
    · by_cases hkn : k' < nn
      · rw [same k' hk' hkn _ hb] at he'
        omega
      · have hf := fresh k' hk' (by omega) h hh hb
        have hpl' := known k' hk' h hh hb
        rw [he'] at hpl'
        exact (W.inj k' hk' k hk (by rw [e4]; intro h0; have := (hccw k' hk').1 h0; omega) (by rw [e4]; intro h0; have := (hccw k hk).1 h0; omega) _ _ _ hpl' hpl).2
    · have := point k' hk' h hh (by omega)
      omega

end
end Mcut.Patches
