import Verif.Spec.C82
import Verif.Props.C81

/-! Lemmas for C82. -/
namespace Mcut.Origin
open Mcut.Hmesh Mcut.Extract Mcut.Registry Mcut.CutEdges Mcut.Boundary Mcut.Trace Mcut.Split
variable {P : Type} {d : P} {junk : Nat} {sm cs : Mesh P} {threads : Option Nat} {S : Soup P} {R : List (Nat × Nat × P)} {t : Registry.Tables P} {keys : List (Nat × Nat)}
  {csort : List Nat → List Nat} {inside : Nat → Nat → Nat → Bool} {sort : Nat → Nat → List Nat → List Nat} {edges : List Nat} {c : CutEdges.St P} {st : Boundary.St P}
  {pieces : Nat → List Nat} {part : (Nat → Bool) → List Nat → List Nat × List Nat}

theorem Setting.merge (Q : Setting d junk sm cs threads S R t keys csort inside sort edges c st pieces) : MergeOf d sm cs S.ps := by
  obtain ⟨S', hS', M, -⟩ := C60_soup junk Q.source Q.cutMesh Q.cutValid threads Q.sizes
  have := Q.merged
  rw [hS'] at this
  exact Option.some.inj this ▸ M

theorem Setting.given (Q : Setting d junk sm cs threads S R t keys csort inside sort edges c st pieces) :
    Given d S.ps S.ps.numVertices t.edges sort edges c st pieces t.reg :=
  C71_given Q.merge Q.sourceValid Q.cutValid R t Q.recorded Q.tested Q.once Q.twice keys Q.pairs csort inside c Q.cutFound Q.arranged Q.all Q.divided

theorem Setting.graph (Q : Setting d junk sm cs threads S R t keys csort inside sort edges c st pieces) :
    CutGraph (addPoints (copyVertices d S.ps).1 t.pts) t.cut c := by
  obtain ⟨c', e', CG⟩ := C66_edges Q.merge Q.sourceValid Q.cutValid R t Q.recorded Q.tested Q.twice keys Q.pairs csort inside
  rw [Q.cutFound] at e'
  exact Option.some.inj e' ▸ CG

/-- The places of the vertices of "m0". -/
theorem Setting.place (Q : Setting d junk sm cs threads S R t keys csort inside sort edges c st pieces) :
    (∀ v, v < S.ps.numVertices → st.m0.pos v = clientPos sm cs v) ∧ ∀ (i : Nat) r, R[i]? = some r → st.m0.pos (S.ps.numVertices + i) = r.2.2 := by
  obtain ⟨-, hold, hpos⟩ := addPoints_bare t.pts _ _ (copyVertices_bare Q.merge.intact)
  have e : st.m0.pos = (addPoints (copyVertices d S.ps).1 t.pts).pos := by rw [Q.divided.same.2.2.1, Q.graph.mesh.pos]
  obtain ⟨-, -, h, -⟩ := C60_m0 Q.merge
  constructor
  · intro v hv
    rw [e, hold v hv]
    exact h v (by rw [← Q.merge.numV]; exact hv)
  · intro i r hr
    rw [e]
    exact hpos i _ (by rw [Q.recorded.pts, List.getElem?_map, hr]; rfl)

theorem Setting.corner (Q : Setting d junk sm cs threads S R t keys csort inside sort edges c st pieces) {f v : Nat} (hf : f < sm.numFaces + cs.numFaces) :
    v ∈ S.ps.verticesAroundFace f ↔ v ∈ clientFace sm cs f := by
  unfold clientFace
  by_cases h : f < sm.numFaces
  · rw [if_pos h, Q.merge.smFaces f h]
  · rw [if_neg h]
    have := Q.merge.cmFaces (f - sm.numFaces) (by omega)
    rw [show sm.numFaces + (f - sm.numFaces) = f by omega] at this
    rw [this.mem_iff]
    simp only [Nat.add_comm]

/-- What a polygon of face `f` has for corners. -/
theorem Setting.belongs (Q : Setting d junk sm cs threads S R t keys csort inside sort edges c st pieces) {f : Nat} (hf : f < sm.numFaces + cs.numFaces) {l : List (List Nat)}
    (F : FaceSub S.ps t.edges sort pieces c st.m0 f l) {p : List Nat} (hp : p ∈ l) {h : Nat} (hh : h ∈ p) :
    st.m0.target h ∈ clientFace sm cs f ∧ st.m0.target h < S.ps.numVertices ∨
      ∃ (i : Nat) (r : Nat × Nat × P), st.m0.target h = S.ps.numVertices + i ∧ R[i]? = some r ∧ (r.2.1 = f ∨ OnEdge S.ps r.1 f) := by
  have G := Q.given
  have lf : LiveF S.ps f := ⟨by rw [← Q.merge.intact.numF, Q.merge.numF]; exact hf, by rw [Q.merge.intact.noRemoved.2]; simp⟩
  have entry : ∀ (i e g : Nat), t.reg[i]? = some (e, g) → ∃ r, R[i]? = some r ∧ r.1 = e ∧ r.2.1 = g := by
    intro i e g h
    rw [Q.recorded.reg, List.getElem?_map] at h
    cases hr : R[i]? with
    | none => rw [hr] at h; cases h
    | some r =>
      rw [hr] at h
      simp only [Option.map_some, Option.some.injEq, Prod.mk.injEq] at h
      exact ⟨r, rfl, h.1, h.2⟩
  rcases F.kind h (List.mem_flatten.2 ⟨p, hp, hh⟩) with h1 | h1
  · obtain ⟨g, hg, hx⟩ := List.mem_flatMap.1 h1
    rcases (G.on_side lf hg hx).2.2.2 with h2 | h2
    · left
      rw [← Q.corner hf, h2]
      exact ⟨List.mem_map.2 ⟨g, hg, rfl⟩, (G.old lf hg).2⟩
    · right
      obtain ⟨i, g', hi, hr⟩ := (G.points _ _).1 h2
      obtain ⟨r, r1, r2, -⟩ := entry _ _ _ hr
      refine ⟨i, r, hi, r1, .inr ?_⟩
      rw [r2]
      have hgf := (((C29_consistent G.ready.psOk).face_list f lf).2.2 g hg).2
      unfold OnEdge
      rcases _root_.Mcut.Trace.half_of (rfl : edgeOf g = edgeOf g) with h' | h'
      · left; rw [← h']; exact hgf
      · right; rw [← h']; exact hgf
  · right
    obtain ⟨-, k, v, w, hk, hfk, hj⟩ := (Q.graph.faces f _).1 h1
    have hv : st.m0.target h ∈ t.cut k := by
      have hj' := (joins_endsIn (G.joins h1)).2
      unfold EndsIn at hj'
      rw [hk, List.mem_cons, List.mem_singleton]
      rcases hj with ⟨h3, h4⟩ | ⟨h3, h4⟩ <;> omega
    obtain ⟨i, e, g, hi, hr, h3, h4, h5⟩ := ((Q.recorded.cut k.1 k.2).2 _).1 hv
    obtain ⟨r, r1, r2, r3⟩ := entry _ _ _ hr
    refine ⟨i, r, hi, r1, ?_⟩
    rw [r2, r3]
    rcases hfk with rfl | rfl
    · rcases h5 with ⟨h5, rfl⟩ | ⟨h5, rfl⟩
      · exact .inr h5
      · exact .inl rfl
    · rcases h5 with ⟨h5, rfl⟩ | ⟨h5, rfl⟩
      · exact .inl rfl
      · exact .inr h5

/-- The traced polygons belong to their faces. -/
theorem Setting.poly (Q : Setting d junk sm cs threads S R t keys csort inside sort edges c st pieces) (hp : IsPartition part) {o : Out}
    (ho : sequential S.ps st sm.numFaces S.ps.numVertices t.reg part (List.range S.ps.numFaces) = some o) {i f : Nat} {p : List Nat} (hi : o.polygons[i]? = some p) (hf : o.faceOf i = some f) :
    f < sm.numFaces + cs.numFaces ∧ ∀ h ∈ p, st.m0.target h ∈ clientFace sm cs f ∧ st.m0.target h < S.ps.numVertices ∨
      ∃ (i : Nat) (r : Nat × Nat × P), st.m0.target h = S.ps.numVertices + i ∧ R[i]? = some r ∧ (r.2.1 = f ∨ OnEdge S.ps r.1 f) := by
  have hnF := Q.merge.numF
  obtain ⟨poly, hpoly, L, -⟩ := Q.given.listed hp (smF := sm.numFaces) (n := S.ps.numFaces) (by omega)
    (fun f hf => ⟨by rw [← Q.merge.intact.numF]; exact hf, by rw [Q.merge.intact.noRemoved.2]; simp⟩) ho
  obtain ⟨g, h1, h2, h3⟩ := L.into hi
  rw [hf] at h2
  obtain rfl := Option.some.inj h2
  have hlt : f < sm.numFaces + cs.numFaces := by rw [← hnF]; exact List.mem_range.1 h1
  exact ⟨hlt, fun h hh => Q.belongs hlt (hpoly f (by omega)).2 h3 hh⟩

/-- A copy of polygons with maps has true maps. `low`: the vertex of "m0" that a vertex of the copied mesh stands for. -/
theorem Setting.copy (Q : Setting d junk sm cs threads S R t keys csort inside sort edges c st pieces) {on : Nat → P → Prop} (O : Fits sm cs S.ps R on) {m : Mesh P} {low : Nat → Nat}
    {polys mesh vs fs} (C : Extract.CopyOf d m polys mesh vs fs) {face : Nat → Option Nat} {popV popF : Bool} {seams fmap : List Nat} {vmap : List (Option Nat)}
    (hpos : ∀ v ∈ vs, m.pos v = st.m0.pos (low v)) (hlow : ∀ v ∈ vs, low v < S.ps.numVertices → low v = v)
    (hseam : ∀ i, i ∈ seams ↔ ∃ v, vs[i]? = some v ∧ S.ps.numVertices ≤ low v)
    (hvm : popV = true → vmap.length = vs.length ∧ ∀ i v : Nat, vs[i]? = some v → vmap[i]? = some (if low v < S.ps.numVertices then some (low v) else none))
    (hfm : popF = true → fmap.length = fs.length ∧ ∀ i f : Nat, fs[i]? = some f → fmap[i]? = face f)
    (hpoly : ∀ (i : Nat) (p : List Nat) (f : Nat), i ∈ fs → polys[i]? = some p → face i = some f → f < sm.numFaces + cs.numFaces ∧ ∀ h ∈ p,
      (low (m.target h) ∈ clientFace sm cs f ∧ low (m.target h) < S.ps.numVertices ∨
      ∃ (i : Nat) (r : Nat × Nat × P), low (m.target h) = S.ps.numVertices + i ∧ R[i]? = some r ∧ (r.2.1 = f ∨ OnEdge S.ps r.1 f))) :
    TrueMaps sm cs on popV popF mesh seams vmap fmap := by
  obtain ⟨pl1, pl2⟩ := Q.place
  have numV := Q.merge.numV
  have get : ∀ i : Nat, i < mesh.numVertices → ∃ v, vs[i]? = some v := fun i hi => ⟨_, List.getElem?_eq_getElem (by rw [← C.numV]; exact hi)⟩
  refine ⟨?_, fun h => by rw [(hvm h).1, C.numV], ?_, ?_, ?_, fun h => by rw [(hfm h).1, C.numF], ?_⟩
  · intro i hi
    obtain ⟨v, hv, -⟩ := (hseam i).1 hi
    rw [C.numV]
    exact (List.getElem?_eq_some_iff.1 hv).1
  · intro h i hi
    obtain ⟨v, hv⟩ := get i hi
    rw [(hvm h).2 i v hv, hseam]
    constructor
    · intro hn
      refine ⟨v, hv, ?_⟩
      by_contra hc
      rw [if_pos (by omega)] at hn
      cases hn
    · rintro ⟨w, hw, hle⟩
      rw [hv] at hw
      obtain rfl := Option.some.inj hw
      rw [if_neg (by omega)]
  · intro h i v hi
    have hlt : i < mesh.numVertices := by
      rw [C.numV, ← (hvm h).1]
      exact (List.getElem?_eq_some_iff.1 hi).1
    obtain ⟨w, hw⟩ := get i hlt
    rw [(hvm h).2 i w hw] at hi
    by_cases hc : low w < S.ps.numVertices
    · rw [if_pos hc] at hi
      obtain rfl := Option.some.inj (Option.some.inj hi)
      rw [C.pos i w hw, hpos w (List.mem_of_getElem? hw)]
      exact ⟨by omega, pl1 _ hc⟩
    · rw [if_neg hc] at hi; cases hi
  · intro h i j v hi hj
    have key : ∀ i : Nat, vmap[i]? = some (some v) → vs[i]? = some v := by
      intro i hi
      have hlt : i < mesh.numVertices := by
        rw [C.numV, ← (hvm h).1]
        exact (List.getElem?_eq_some_iff.1 hi).1
      obtain ⟨w, hw⟩ := get i hlt
      rw [(hvm h).2 i w hw] at hi
      by_cases hc : low w < S.ps.numVertices
      · rw [if_pos hc] at hi
        obtain rfl := Option.some.inj (Option.some.inj hi)
        rw [hw, hlow w (List.mem_of_getElem? hw) hc]
      · rw [if_neg hc] at hi; cases hi
    have h1 := key i hi
    have h2 := key j hj
    exact (List.getElem?_inj (List.getElem?_eq_some_iff.1 h1).1 C.vsNodup).1 (h1.trans h2.symm)
  · intro h i f hi
    have hlt : i < fs.length := by rw [← (hfm h).1]; exact (List.getElem?_eq_some_iff.1 hi).1
    have hg : fs[i]? = some fs[i] := List.getElem?_eq_getElem hlt
    rw [(hfm h).2 i _ hg] at hi
    have hr := C.range _ (List.getElem_mem hlt)
    obtain ⟨b1, b2⟩ := hpoly fs[i] polys[fs[i]] f (List.getElem_mem hlt) (List.getElem?_eq_getElem hr) hi
    refine ⟨b1, ?_⟩
    intro x hx
    have hc := C.faces i _ hg
    have : vs[x]? ∈ (corners m polys fs[i]).map some := hc.mem_iff.1 (List.mem_map.2 ⟨x, hx, rfl⟩)
    obtain ⟨w, hw, e⟩ := List.mem_map.1 this
    unfold Extract.corners at hw
    rw [List.getD_eq_getElem?_getD, List.getElem?_eq_getElem hr, Option.getD_some] at hw
    obtain ⟨g, hg', rfl⟩ := List.mem_map.1 hw
    have hmem := List.mem_of_getElem? e.symm
    have hp : mesh.pos x = st.m0.pos (low (m.target g)) := by rw [C.pos x _ e.symm, hpos _ hmem]
    rcases b2 g hg' with ⟨h1, h2⟩ | ⟨k, r, h1, h2, h3⟩
    · have hp' : mesh.pos x = clientPos sm cs (low (m.target g)) := by rw [hp, pl1 _ h2]
      refine ⟨by rw [hp']; exact O.corner f _ b1 h1, fun _ => ⟨_, h1, hp', fun hv => ?_⟩⟩
      rw [(hvm hv).2 x _ e.symm, if_pos h2]
    · constructor
      · rw [hp, h1, pl2 k r h2]
        rcases h3 with rfl | h3
        · exact O.inner r (List.mem_of_getElem? h2)
        · exact O.edge r (List.mem_of_getElem? h2) f h3
      · intro hn
        exact absurd ((hseam x).2 ⟨_, e.symm, by omega⟩) hn

end Mcut.Origin

namespace Mcut.Geom
variable {K : Type} [Field K] [LinearOrder K] [IsStrictOrderedRing K]

theorem inTriangle_corner {a b c x : V3 K} (h : x ∈ [a, b, c]) : InTriangle a b c x := by
  simp only [List.mem_cons, List.not_mem_nil, or_false] at h
  rcases h with rfl | rfl | rfl
  · exact ⟨1, 0, 0, by norm_num, by norm_num, by norm_num, by norm_num, by cases x; simp⟩
  · exact ⟨0, 1, 0, by norm_num, by norm_num, by norm_num, by norm_num, by cases x; simp⟩
  · exact ⟨0, 0, 1, by norm_num, by norm_num, by norm_num, by norm_num, by cases x; simp⟩

theorem inTriangle_rot {a b c x : V3 K} (h : InTriangle a b c x) : InTriangle b c a x := by
  obtain ⟨u, v, w, hu, hv, hw, hs, rfl⟩ := h
  refine ⟨v, w, u, hv, hw, hu, by linarith, ?_⟩
  congr 1 <;> ring

theorem inTriangle_between {a b c q r p : V3 K} {s : K} (hq : InTriangle a b c q) (hr : InTriangle a b c r) (h : Boundary.Between q r p s) : InTriangle a b c p := by
  obtain ⟨u, v, w, hu, hv, hw, hs, rfl⟩ := hq
  obtain ⟨u', v', w', hu', hv', hw', hs', rfl⟩ := hr
  obtain ⟨s0, s1, x, y, z⟩ := h
  have k : 0 ≤ 1 - s := by linarith
  have k' : 0 ≤ s := s0.le
  refine ⟨(1 - s) * u + s * u', (1 - s) * v + s * v', (1 - s) * w + s * w', by positivity, by positivity, by positivity, by linear_combination (1 - s) * hs + s * hs', ?_⟩
  cases p
  simp only [V3.mk.injEq]
  simp only at x y z
  refine ⟨?_, ?_, ?_⟩
  · rw [x]; ring
  · rw [y]; ring
  · rw [z]; ring

end Mcut.Geom

namespace Mcut.Origin
open Mcut.Hmesh Mcut.Extract Mcut.Registry Mcut.CutEdges Mcut.Whole
variable {K : Type} [Field K] [LinearOrder K] [IsStrictOrderedRing K] {d : Box.V3 K} {sm cs ps : Mesh (Box.V3 K)}

theorem three_rot {l l' : List (Geom.V3 K)} (h : l ~r l') {x : Geom.V3 K} (hl : ∃ a b c, l = [a, b, c] ∧ Geom.InTriangle a b c x) : ∃ a b c, l' = [a, b, c] ∧ Geom.InTriangle a b c x := by
  obtain ⟨a, b, c, rfl, hi⟩ := hl
  obtain ⟨n, hn, rfl⟩ := List.isRotated_iff_mod.1 h
  have : n = 0 ∨ n = 1 ∨ n = 2 ∨ n = 3 := by simp at hn; omega
  rcases this with rfl | rfl | rfl | rfl
  · exact ⟨a, b, c, rfl, hi⟩
  · exact ⟨b, c, a, rfl, Geom.inTriangle_rot hi⟩
  · exact ⟨c, a, b, rfl, Geom.inTriangle_rot (Geom.inTriangle_rot hi)⟩
  · exact ⟨a, b, c, by simpa using List.rotate_length [a, b, c], hi⟩

/-- A face of the merged mesh is the face of the client. -/
theorem face_corners (M : MergeOf d sm cs ps) (hs : Preproc.ValidMesh sm.numVertices (polygons sm)) (hc : Preproc.ValidMesh cs.numVertices (polygons cs)) {f : Nat} (hf : f < ps.numFaces) :
    Whole.corners ps f ~r (clientFace sm cs f).map (fun v => pt (clientPos sm cs v)) := by
  have hnF := M.numF
  have hlt : ∀ v ∈ ps.verticesAroundFace f, v < ps.numVertices := by
    intro v hv
    rw [M.numV]
    by_cases h : f < sm.numFaces
    · rw [M.smFaces f h] at hv
      have := (hs.1 _ (List.mem_map.2 ⟨f, List.mem_range.2 h, rfl⟩)).2.2 v hv
      omega
    · have hr := M.cmFaces (f - sm.numFaces) (by omega)
      rw [show sm.numFaces + (f - sm.numFaces) = f by omega] at hr
      obtain ⟨w, hw, rfl⟩ := List.mem_map.1 (hr.mem_iff.1 hv)
      have := (hc.1 _ (List.mem_map.2 ⟨f - sm.numFaces, List.mem_range.2 (by omega), rfl⟩)).2.2 w hw
      omega
  have e : Whole.corners ps f = (ps.verticesAroundFace f).map (fun v => pt (clientPos sm cs v)) := by
    unfold Whole.corners
    refine List.map_congr_left fun v hv => ?_
    rw [M.pos v (hlt v hv)]
  rw [e]
  unfold clientFace
  by_cases h : f < sm.numFaces
  · rw [if_pos h, M.smFaces f h]
  · rw [if_neg h]
    have hr := M.cmFaces (f - sm.numFaces) (by omega)
    rw [show sm.numFaces + (f - sm.numFaces) = f by omega] at hr
    have := hr.map (fun v => pt (clientPos sm cs v))
    simpa only [Nat.add_comm] using this

end Mcut.Origin
