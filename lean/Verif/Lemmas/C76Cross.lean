import Verif.Lemmas.C73
import Verif.Lemmas.C74Simple
import Verif.Lemmas.C74Face
import Verif.Spec.C76

/-! Lemmas for C76: the polygons of a face at an intersection point on its boundary. -/
namespace Mcut.Trace
open Mcut.Hmesh Mcut.Registry Mcut.CutEdges Mcut.Boundary
variable {P : Type} {d : P} {ps : Mesh P} {base : Nat} {pts : Nat → List Nat} {sort : Nat → Nat → List Nat → List Nat} {edges : List Nat} {c : CutEdges.St P} {st : Boundary.St P}
  {pieces : Nat → List Nat} {reg : List (Nat × Nat)}

theorem follows_next {R : Nat → Nat → Prop} {p : List Nat} (hc : Cyclic R p) {x : Nat} (hx : x ∈ p) : ∃ y, Follows p x y ∧ R x y := by
  unfold Cyclic at hc
  rw [List.isChain_iff_getElem] at hc
  obtain ⟨i, hi, rfl⟩ := List.getElem_of_mem hx
  have hlen : (p ++ p.take 1).length = p.length + 1 := by simp; omega
  have h1 := hc i (by omega)
  rw [List.getElem_append_left hi] at h1
  have hm : (i + 1) % p.length < p.length := Nat.mod_lt _ (by omega)
  refine ⟨p[(i + 1) % p.length], ⟨i, List.getElem?_eq_getElem hi, List.getElem?_eq_getElem hm⟩, ?_⟩
  by_cases hl : i + 1 < p.length
  · rw [List.getElem_append_left hl] at h1
    simp only [Nat.mod_eq_of_lt hl]; exact h1
  · rw [List.getElem_append_right (by omega)] at h1
    have e : i + 1 = p.length := by omega
    have e0 : (i + 1) % p.length = 0 := by rw [e]; exact Nat.mod_self _
    simp only [e0]
    simpa [e] using h1

theorem follows_prev {R : Nat → Nat → Prop} {p : List Nat} (hc : Cyclic R p) {y : Nat} (hy : y ∈ p) : ∃ x, Follows p x y ∧ R x y := by
  obtain ⟨i, hi, rfl⟩ := List.getElem_of_mem hy
  unfold Cyclic at hc
  rw [List.isChain_iff_getElem] at hc
  have hlen : (p ++ p.take 1).length = p.length + 1 := by simp; omega
  by_cases h0 : i = 0
  · subst h0
    have hj : p.length - 1 < p.length := by omega
    have e : p.length - 1 + 1 = p.length := by omega
    refine ⟨p[p.length - 1], ⟨_, List.getElem?_eq_getElem hj, by rw [e, Nat.mod_self]; exact List.getElem?_eq_getElem hi⟩, ?_⟩
    have h4 := hc (p.length - 1) (by omega)
    rw [List.getElem_append_left hj, List.getElem_append_right (by omega)] at h4
    simpa [e] using h4
  · have hj : i - 1 < p.length := by omega
    have e : i - 1 + 1 = i := by omega
    refine ⟨p[i - 1], ⟨_, List.getElem?_eq_getElem hj, by rw [e, Nat.mod_eq_of_lt hi]; exact List.getElem?_eq_getElem hi⟩, ?_⟩
    have h4 := hc (i - 1) (by omega)
    rw [List.getElem_append_left hj, List.getElem_append_left (by omega)] at h4
    simpa [e] using h4

theorem Follows.mem {p : List Nat} {x y : Nat} (h : Follows p x y) : x ∈ p ∧ y ∈ p := by
  obtain ⟨k, h1, h2⟩ := h
  exact ⟨List.mem_of_getElem? h1, List.mem_of_getElem? h2⟩

/-- What the polygons of face `f` do at the intersection points on the boundary of the face. -/
structure FaceCross (ps : Mesh P) (pts : Nat → List Nat) (sort : Nat → Nat → List Nat → List Nat) (pieces : Nat → List Nat) (c : CutEdges.St P) (m0 : Mesh P) (f : Nat) (l : List (List Nat)) : Prop where
  ahead : ∀ p ∈ l, ∀ x ∈ p, ∀ h ∈ ps.fh f, x ∈ side ps m0 pts sort pieces h → m0.target x ∈ pts (edgeOf h) →
    ∃ y, Follows p x y ∧ edgeOf y ∈ c.faceEdges f ∧ ∃ q ∈ l, ∃ z, Follows q (opposite y) z ∧ z ∈ side ps m0 pts sort pieces h ∧ src m0 z = m0.target x
  back : ∀ q ∈ l, ∀ z ∈ q, ∀ h ∈ ps.fh f, z ∈ side ps m0 pts sort pieces h → src m0 z ∈ pts (edgeOf h) →
    ∃ y, Follows q (opposite y) z ∧ edgeOf y ∈ c.faceEdges f ∧ ∃ p ∈ l, ∃ x, Follows p x y ∧ x ∈ side ps m0 pts sort pieces h ∧ m0.target x = src m0 z

/-- A point on an edge is the end of parts of that edge only. -/
theorem Given.side_of (G : Given d ps base pts sort edges c st pieces reg) {f h x : Nat} (hf : LiveF ps f) (hh : h ∈ ps.fh f) (hx : x ∈ outline ps st.m0 pts sort pieces f)
    (hp : src st.m0 x ∈ pts (edgeOf h) ∨ st.m0.target x ∈ pts (edgeOf h)) : x ∈ side ps st.m0 pts sort pieces h := by
  obtain ⟨h', hh', hx'⟩ := List.mem_flatMap.1 hx
  obtain ⟨-, -, h3, h4⟩ := G.on_side hf hh' hx'
  obtain ⟨o1, o2⟩ := G.old hf hh'
  have : edgeOf h' = edgeOf h := by
    rcases hp with hp | hp
    · rcases h3 with h3 | h3
      · have := (G.pts_base hp).1; omega
      · exact pts_edge G h3 hp
    · rcases h4 with h4 | h4
      · have := (G.pts_base hp).1; omega
      · exact pts_edge G h4 hp
  rw [← G.edge_inj hf hh' hh this]; exact hx'

theorem Given.onEdge (G : Given d ps base pts sort edges c st pieces reg) {f h : Nat} (hf : LiveF ps f) (hh : h ∈ ps.fh f) : OnEdge ps (edgeOf h) f := by
  have hfh := (G.live hf hh).2.2
  unfold OnEdge
  rcases _root_.Mcut.Trace.half_of (rfl : edgeOf h = edgeOf h) with h' | h'
  · left; rw [← h']; exact hfh
  · right; rw [← h']; exact hfh

theorem Given.cross (G : Given d ps base pts sort edges c st pieces reg) {part : (Nat → Bool) → List Nat → List Nat × List Nat} (hp : IsPartition part) {f : Nat} (hf : LiveF ps f)
    (one : SimpleEdges ps) (few : c.faceEdges f ≠ [] → ∀ g ∈ ps.fh f, (pts (edgeOf g)).length ≤ 1)
    (ends : ∀ e f v, LiveE ps e → OnEdge ps e f → v ∈ pts e → ∃ a ∈ c.faceEdges f, EndsIn c.m0 a v) {l : List (List Nat)} (hl : facePolygons ps st base reg part f = some l) :
    FaceCross ps pts sort pieces c st.m0 f l := by
  by_cases hc : c.faceEdges f = []
  · constructor
    · intro p _ x _ h hh _ hv
      obtain ⟨a, ha, -⟩ := ends _ _ _ (G.live hf hh).2.1 (G.onEdge hf hh) hv
      rw [hc] at ha; cases ha
    · intro p _ x _ h hh _ hv
      obtain ⟨a, ha, -⟩ := ends _ _ _ (G.live hf hh).2.1 (G.onEdge hf hh) hv
      rw [hc] at ha; cases ha
  · unfold facePolygons at hl
    rw [if_pos ((G.entry_iff hf).2 hc)] at hl
    obtain ⟨l', E, I, h1, h2, h3, A, Q, rest, rfl, k2, k3, k4, k5⟩ := G.cut_few hp hf hc one (few hc)
    rw [h1] at hl
    obtain rfl := Option.some.inj hl
    have hIm : ∀ h, h ∈ I ↔ edgeOf h ∈ c.faceEdges f := fun h => by rw [h3.mem_iff, mem_both]
    have hEm : ∀ h, h ∈ E ↔ h ∈ outline ps st.m0 pts sort pieces f := fun h => h2.perm.mem_iff
    have L0 := G.laid hf h2 (List.Perm.refl _)
    have hI0 : ∀ h, h ∈ (c.faceEdges f).flatMap (fun e => [halfedgeOf e 0, halfedgeOf e 1]) ↔ h ∈ I := fun h => h3.mem_iff.symm
    have dis : ∀ {h}, h ∈ E → h ∈ I → False := fun a b => L0.disjoint a ((hI0 _).2 b)
    have flip : ∀ h ∈ I, src st.m0 (opposite h) = st.m0.target h ∧ st.m0.target (opposite h) = src st.m0 h := fun h hh => L0.flip h ((hI0 h).2 hh)
    have pairs : ∀ h ∈ I, opposite h ∈ I := fun h hh => (hI0 _).1 (L0.pairs h ((hI0 h).2 hh))
    have twice : ∀ h ∈ I, opposite (opposite h) = h := fun h hh => L0.twice h ((hI0 h).2 hh)
    have inE : ∀ {h x}, h ∈ ps.fh f → x ∈ side ps st.m0 pts sort pieces h → x ∈ E := fun hh hx => (hEm _).2 (List.mem_flatMap.2 ⟨_, hh, hx⟩)
    -- the polygons with boundary
    have inA : ∀ {p x}, p ∈ A ++ Q → x ∈ p → x ∈ E → p ∈ A := by
      intro p x hp hx hxE
      rcases List.mem_append.1 hp with h | h
      · exact h
      · exact (dis hxE (k5 x (k4.subset (List.mem_flatten.2 ⟨p, h, hx⟩))).1).elim
    -- the boundary at a point
    have before : ∀ {h v}, h ∈ ps.fh f → v ∈ pts (edgeOf h) → (∃ x ∈ E, src st.m0 x = v) ∧ ∃ x ∈ E, st.m0.target x = v := by
      intro h v hh hv
      have hlh := (G.live hf hh).1
      obtain ⟨q, q1, q2⟩ := G.path hlh
      obtain ⟨-, s2, s3, -⟩ := G.sides hlh
      rw [q2, ← List.cons_append, List.dropLast_concat] at s2
      rw [q2, List.tail_cons] at s3
      have hvq := q1.symm.subset hv
      constructor
      · have : v ∈ (side ps st.m0 pts sort pieces h).map (src st.m0) := by rw [s2]; exact List.mem_cons_of_mem _ hvq
        obtain ⟨x, hx, e⟩ := List.mem_map.1 this
        exact ⟨x, inE hh hx, e⟩
      · have : v ∈ (side ps st.m0 pts sort pieces h).map st.m0.target := by rw [s3]; exact List.mem_append_left _ hvq
        obtain ⟨x, hx, e⟩ := List.mem_map.1 this
        exact ⟨x, inE hh hx, e⟩
    have cutAt : ∀ {h v}, h ∈ ps.fh f → v ∈ pts (edgeOf h) → ∃ y ∈ I, src st.m0 y = v := by
      intro h v hh hv
      obtain ⟨a, ha, he⟩ := ends _ _ _ (G.live hf hh).2.1 (G.onEdge hf hh) hv
      obtain ⟨w, hj⟩ := endsIn_joins he
      obtain ⟨y, hy, e1, -⟩ := G.half_of ha hj
      exact ⟨y, (hIm y).2 (by rw [hy]; exact ha), e1⟩
    -- a cut halfedge at a point is in a polygon with boundary
    have used : ∀ {y}, y ∈ I → (∃ x ∈ E, src st.m0 x = src st.m0 y ∨ src st.m0 x = st.m0.target y) → ∃ p ∈ A, y ∈ p := by
      rintro y hy ⟨x, hx, hxy⟩
      rcases List.mem_append.1 (k2.symm.subset (List.mem_append_right _ hy)) with h | h
      · obtain ⟨p, hp, hyp⟩ := List.mem_flatten.1 h
        exact ⟨p, hp, hyp⟩
      · refine absurd ⟨x, hx, ?_⟩ (k5 y h).2
        rcases hxy with e | e
        · exact Relation.ReflTransGen.single ⟨opposite y, pairs y hy, (flip y hy).1, (flip y hy).2.trans e.symm⟩
        · rw [e]
    constructor
    · intro p hpl x hx h hh hxs hv
      have hxE := inE hh hxs
      have hpA := inA hpl hx hxE
      obtain ⟨y, fy, ty⟩ := follows_next (k3 p hpA).2 hx
      have hyI := ty.into hxE (cutAt hh hv)
      have hos := (flip y hyI).2
      obtain ⟨⟨z0, hz0, ez0⟩, -⟩ := before hh hv
      have htv : st.m0.target (opposite y) = st.m0.target x := hos.trans ty.goesOn
      obtain ⟨q, hqA, hyq⟩ := used (pairs y hyI) ⟨z0, hz0, .inr (ez0.trans htv.symm)⟩
      obtain ⟨z, fz, tz⟩ := follows_next (k3 q hqA).2 hyq
      have hzE := tz.outOf (pairs y hyI) ⟨z0, hz0, ez0.trans htv.symm⟩
      have ez : src st.m0 z = st.m0.target x := tz.goesOn.trans htv
      exact ⟨y, fy, (hIm y).1 hyI, q, List.mem_append_left _ hqA, z, fz, G.side_of hf hh ((hEm z).1 hzE) (.inl (by rw [ez]; exact hv)), ez⟩
    · intro q hql z hz h hh hzs hv
      have hzE := inE hh hzs
      have hqA := inA hql hz hzE
      obtain ⟨w, fw, tw⟩ := follows_prev (k3 q hqA).2 hz
      have hwt : st.m0.target w = src st.m0 z := tw.goesOn.symm
      have hwI : w ∈ I := by
        rcases cyclic_sub (k3 q hqA).2 w fw.mem.1 with hE | hI
        · obtain ⟨y0, hy0, ey0⟩ := cutAt hh hv
          exact (dis hzE (tw.into hE ⟨y0, hy0, ey0.trans hwt.symm⟩)).elim
        · exact hI
      have hyI := pairs w hwI
      obtain ⟨p, hpA, hyp⟩ := used hyI ⟨z, hzE, .inl (by rw [(flip w hwI).1, hwt])⟩
      obtain ⟨x, fx, tx⟩ := follows_prev (k3 p hpA).2 hyp
      have hxt : st.m0.target x = src st.m0 z := by rw [← tx.goesOn, (flip w hwI).1, hwt]
      have hxE : x ∈ E := by
        rcases cyclic_sub (k3 p hpA).2 x fx.mem.1 with hE | hI
        · exact hE
        · exact (dis (tx.outOf hI ⟨z, hzE, hxt.symm⟩) hyI).elim
      exact ⟨opposite w, by rw [twice w hwI]; exact fw, (hIm _).1 hyI, p, List.mem_append_left _ hpA, x, fx,
        G.side_of hf hh ((hEm x).1 hxE) (.inr (by rw [hxt]; exact hv)), hxt⟩

end Mcut.Trace
