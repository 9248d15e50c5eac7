import Verif.Lemmas.C71Search

/-! Lemmas for C71: the polygons of one face. -/
namespace Mcut.Trace
open Mcut.Hmesh Mcut.Registry Mcut.CutEdges Mcut.Boundary
variable {P : Type} {d : P} {ps : Mesh P} {base : Nat} {pts : Nat → List Nat} {sort : Nat → Nat → List Nat → List Nat} {edges : List Nat} {c : CutEdges.St P} {st : Boundary.St P}
  {pieces : Nat → List Nat} {reg : List (Nat × Nat)}

theorem Ringed.chain {m : Mesh P} {E : List Nat} (R : Ringed m E) : E.IsChain (fun a b => m.target a = src m b) := by
  rw [List.isChain_iff_getElem]
  intro i hi
  obtain ⟨g, h1, h2⟩ := R.next (List.getElem?_eq_getElem (show i < E.length by omega))
  rw [Nat.mod_eq_of_lt (by omega), List.getElem?_eq_getElem hi] at h1
  rw [Option.some.inj h1]; exact h2

/-- The outline in terms of the specification. -/
theorem Given.boundaryOf (G : Given d ps base pts sort edges c st pieces reg) {f : Nat} (hf : LiveF ps f) {E : List Nat} (hE : E ~r outline ps st.m0 pts sort pieces f) :
    BoundaryOf ps st.m0 pts sort pieces f E := by
  refine ⟨?_, ?_, ?_⟩
  · refine (hE.perm.map _).trans ?_
    unfold outline
    rw [List.map_flatMap]
    refine List.Perm.flatMap_left _ (fun h hh => ?_)
    rw [(G.sides (G.live hf hh).1).1]
    unfold piecesOf
    split
    · exact List.Perm.refl _
    · exact List.reverse_perm _
  · have h1 : (outline ps st.m0 pts sort pieces f).map (src st.m0) = (ps.fh f).flatMap (fun h => (pathOf ps pts sort h).dropLast) := by
      unfold outline
      rw [List.map_flatMap]
      exact List.flatMap_congr (fun h hh => (G.sides (G.live hf hh).1).2.1)
    rw [← h1]
    exact hE.map _
  · obtain ⟨n, hn⟩ := hE.symm
    rw [← hn]
    exact (G.ring hf).rotate n

theorem Given.out_eq (G : Given d ps base pts sort edges c st pieces reg) {f : Nat} (hf : LiveF ps f) {h : Nat} {es : List Nat} (hh : h ∈ outline ps st.m0 pts sort pieces f)
    (hes : es.Perm ((outline ps st.m0 pts sort pieces f).map edgeOf)) : ∃ E, E ~r outline ps st.m0 pts sort pieces f ∧ outside st.m0 base reg es.length h es = E ∧ E.head? = some h := by
  obtain ⟨a, b, hab⟩ := List.append_of_mem hh
  have hE : (h :: (b ++ a)) ~r outline ps st.m0 pts sort pieces f := by
    rw [hab, ← List.cons_append]; exact List.isRotated_append
  refine ⟨h :: (b ++ a), hE, ?_, rfl⟩
  have hp := hE.perm
  obtain ⟨n, hn⟩ := hE.symm
  have hR := (G.ring hf).rotate n
  rw [hn] at hR
  refine outside_spec G.divided.valid (b ++ a) h es.length es ?_ ?_ hR.chain ((hp.map _).nodup_iff.2 (G.sources hf)) ((hp.map _).nodup_iff.2 (G.targets hf))
    ((hp.map _).nodup_iff.2 (G.edges_nodup hf)) (hes.trans (hp.map _).symm) ?_
  · have h1 := hes.length_eq
    have h2 := hp.length_eq
    rw [List.length_map] at h1
    rw [List.length_cons] at h2
    omega
  · intro x hx
    obtain ⟨g, hg, hxg⟩ := List.mem_flatMap.1 (hp.subset hx)
    exact (G.on_side hf hg hxg).1
  · intro e he
    obtain ⟨y, hy, rfl⟩ := List.mem_map.1 (hes.subset he)
    obtain ⟨g, hg, hyg⟩ := List.mem_flatMap.1 hy
    exact G.piece_boundary hf hg hyg

/-- The halfedges of a face, and its polygons. -/
theorem Given.face (G : Given d ps base pts sort edges c st pieces reg) {part : (Nat → Bool) → List Nat → List Nat × List Nat} (hp : IsPartition part) {f : Nat} (hf : LiveF ps f)
    (hc : c.faceEdges f ≠ []) {all : List Nat} {k : Nat} (h : halfedgesOf ps st base reg part f = some (all, k)) :
    ∃ E I, all = E ++ I ∧ k = E.length ∧ E ~r outline ps st.m0 pts sort pieces f ∧ I.Perm ((c.faceEdges f).flatMap (fun e => [halfedgeOf e 0, halfedgeOf e 1])) ∧
      ((∀ h, all.head? = some h → src st.m0 h < base) → Divides st.m0 E I (polygonsOf st.m0 all k all.length all)) := by
  obtain ⟨p1, p2⟩ := G.parts hp hf hc
  unfold halfedgesOf at h
  simp only at h
  cases hs : search ps st base reg f (part (isBoundary st.m0 base reg) (st.faceEdges f)).1 with
  | no => rw [hs] at h; cases h
  | bad => rw [hs] at h; cases h
  | take r =>
    rw [hs] at h
    simp only [Option.some.injEq, Prod.mk.injEq] at h
    have hr := G.search_take hf _ (fun e he => p1.subset he) hs
    obtain ⟨E, hE, hout, hhead⟩ := G.out_eq hf hr p1
    rw [hout] at h
    obtain ⟨rfl, rfl⟩ := h
    have L := G.laid hf hE p2
    refine ⟨E, _, rfl, rfl, hE, p2.flatMap_right _, fun hfirst => ?_⟩
    have hfirst' : ∀ h, E.head? = some h → ∀ g ∈ (part (isBoundary st.m0 base reg) (st.faceEdges f)).2.flatMap (fun e => [halfedgeOf e 0, halfedgeOf e 1]), src st.m0 g ≠ src st.m0 h := by
      intro h hh g hg
      have hlt := hfirst h (by rw [List.head?_append, hh]; rfl)
      have hgc : edgeOf g ∈ c.faceEdges f := p2.subset (mem_both.1 hg)
      obtain ⟨hlive, k1, k2⟩ := G.cut_kept hgc
      have hlg : LiveH st.m0 g := ((reachable_wf G.divided.valid).liveH_iff g).2 hlive
      have : base ≤ src st.m0 g := by
        rcases ends_of G.divided.valid hlg with ⟨e1, e2⟩ | ⟨e1, e2⟩
        · rw [← e2, k2]; exact G.cutEnds f _ hgc _ (.inr rfl)
        · rw [← e1, k1]; exact G.cutEnds f _ hgc _ (.inl rfl)
      omega
    obtain ⟨A, Q, rest, h1, h2, h3, h4, h5, h6⟩ := polygonsOf_spec L hfirst' _ _ (Nat.le_refl _) (List.Sublist.refl _) (whole_all L)
    exact ⟨A, Q, rest, h1, h2, fun p hp => ⟨(h6 p hp).1, (h6 p hp).2.1⟩, h3, fun x hx => ⟨h4 x hx, rest_free L h4 h5 hx⟩⟩

theorem Given.entry_iff (G : Given d ps base pts sort edges c st pieces reg) {f : Nat} (hf : LiveF ps f) : Boundary.entry st f = true ↔ c.faceEdges f ≠ [] := by
  unfold Boundary.entry
  constructor
  · intro h hc
    rw [G.divided.others f hc] at h; simp at h
  · intro hc
    obtain ⟨e, he⟩ := List.exists_mem_of_ne_nil _ hc
    have := (G.divided.faces f hf hc).symm.subset (List.mem_append_left _ he)
    cases hz : st.faceEdges f with
    | nil => rw [hz] at this; simp at this
    | cons a l => rfl

/-- With at most one point per edge, the polygons divide the face. -/
theorem Given.cut_few (G : Given d ps base pts sort edges c st pieces reg) {part : (Nat → Bool) → List Nat → List Nat × List Nat} (hp : IsPartition part) {f : Nat} (hf : LiveF ps f)
    (hc : c.faceEdges f ≠ []) (one : SimpleEdges ps) (few : ∀ g ∈ ps.fh f, (pts (edgeOf g)).length ≤ 1) :
    ∃ l E I, cutFace ps st base reg part f = some l ∧ E ~r outline ps st.m0 pts sort pieces f ∧ I.Perm ((c.faceEdges f).flatMap (fun e => [halfedgeOf e 0, halfedgeOf e 1])) ∧ Divides st.m0 E I l := by
  obtain ⟨p1, p2⟩ := G.parts hp hf hc
  obtain ⟨r, hr, hlt⟩ := G.search_few hf one few p1
  have hmem := G.search_take hf _ (fun e he => p1.subset he) hr
  obtain ⟨E, hE, hout, hhead⟩ := G.out_eq hf hmem p1
  have hh : halfedgesOf ps st base reg part f = some (E ++ (part (isBoundary st.m0 base reg) (st.faceEdges f)).2.flatMap (fun e => [halfedgeOf e 0, halfedgeOf e 1]), E.length) := by
    unfold halfedgesOf
    simp only [hr, hout]
  obtain ⟨E', I, e1, e2, h1, h2, h3⟩ := G.face hp hf hc hh
  refine ⟨_, E', I, by unfold cutFace; rw [hh]; rfl, h1, h2, h3 ?_⟩
  intro h hh'
  rw [List.head?_append, hhead] at hh'
  simp at hh'
  exact hh' ▸ hlt

/-- A face without cut edges is copied. -/
theorem Given.copied (G : Given d ps base pts sort edges c st pieces reg) {f : Nat} (hf : LiveF ps f) (hc : c.faceEdges f = []) :
    ∃ p, copyFace ps st f = some p ∧ CopyOf ps st.m0 pieces f p := by
  have C := C29_consistent G.ready.psOk
  have key : ∀ h ∈ ps.fh f, ∃ x, (st.plain (edgeOf h)).map (fun e =>
      if src st.m0 (halfedgeOf e 0) = src ps h ∧ st.m0.target (halfedgeOf e 0) = ps.target h then halfedgeOf e 0 else halfedgeOf e 1) = some x ∧
      [edgeOf x] = pieces (edgeOf h) ∧ src st.m0 x = src ps h ∧ st.m0.target x = ps.target h := by
    intro h hh
    obtain ⟨hl, hle, hfh⟩ := G.live hf hh
    have hmem := (G.all.2 _).2 hle
    have hpts : pts (edgeOf h) = [] := by
      by_contra hne
      have hon : OnEdge ps (edgeOf h) f := by
        unfold OnEdge
        rcases half_of (rfl : edgeOf h = edgeOf h) with h' | h'
        · left; rw [← h']; exact hfh
        · right; rw [← h']; exact hfh
      exact G.ready.entries _ _ hle hne hon hc
    obtain ⟨x, hx, hpx⟩ := G.divided.plain _ hmem hpts
    have hlx := (G.pieceLive hle x (by rw [hx]; simp)).1
    obtain ⟨s1, s2, s3, s4⟩ := G.sides hl
    obtain ⟨q, q1, q2⟩ := G.path hl
    rw [hpts] at q1
    obtain rfl := List.perm_nil.1 q1
    have hpo : piecesOf pieces h = [x] := by unfold piecesOf; rw [hx]; split <;> simp
    rw [hpo] at s1
    rw [q2] at s2 s3
    match hz : side ps st.m0 pts sort pieces h, s1 with
    | [y], s1 =>
      rw [hz] at s2 s3 s4
      simp only [List.map_cons, List.map_nil, List.cons.injEq, and_true, List.nil_append, List.dropLast, List.tail_cons] at s1 s2 s3
      have hly := s4 y (by simp)
      have hy : (if src st.m0 (halfedgeOf x 0) = src ps h ∧ st.m0.target (halfedgeOf x 0) = ps.target h then halfedgeOf x 0 else halfedgeOf x 1) = y := by
        rcases half_of s1 with h' | h'
        · rw [← h', if_pos ⟨s2, s3⟩]
        · rw [if_neg, h']
          rintro ⟨e1, -⟩
          have ho : opposite y = halfedgeOf x 0 := by rw [h']; unfold opposite halfedgeOf; rw [if_neg (by omega)]; omega
          rw [← ho, (src_of G.divided.valid hly).2.2.1, ← s2] at e1
          exact (src_of G.divided.valid hly).2.1 e1.symm
      exact ⟨y, by rw [hpx, Option.map_some, hy], by rw [hx, s1], s2, s3⟩
  have gen : ∀ l : List Nat, (∀ h ∈ l, h ∈ ps.fh f) → ∃ p, l.mapM (fun h => (st.plain (edgeOf h)).map (fun e =>
      if src st.m0 (halfedgeOf e 0) = src ps h ∧ st.m0.target (halfedgeOf e 0) = ps.target h then halfedgeOf e 0 else halfedgeOf e 1)) = some p ∧
      p.map edgeOf = l.flatMap (fun h => pieces (edgeOf h)) ∧ p.map (src st.m0) = l.map (src ps) ∧ p.map st.m0.target = l.map ps.target := by
    intro l
    induction l with
    | nil => intro _; exact ⟨[], by simp, by simp, by simp, by simp⟩
    | cons a l ih =>
      intro hl
      obtain ⟨x, x1, x2, x3, x4⟩ := key a (hl a (by simp))
      obtain ⟨p, p1, p2, p3, p4⟩ := ih (fun h hh => hl h (by simp [hh]))
      refine ⟨x :: p, ?_, ?_, ?_, ?_⟩
      · rw [List.mapM_cons, x1, p1]; rfl
      · rw [List.map_cons, List.flatMap_cons, p2, ← x2]; rfl
      · rw [List.map_cons, List.map_cons, p3, x3]
      · rw [List.map_cons, List.map_cons, p4, x4]
  obtain ⟨p, p1, p2, p3, p4⟩ := gen _ (fun h hh => hh)
  exact ⟨p, p1, p2, p3, p4⟩

/-- The polygons of any face. -/
theorem Given.done (G : Given d ps base pts sort edges c st pieces reg) {part : (Nat → Bool) → List Nat → List Nat × List Nat} (hp : IsPartition part) {f : Nat} (hf : LiveF ps f)
    (one : SimpleEdges ps) (few : c.faceEdges f ≠ [] → ∀ g ∈ ps.fh f, (pts (edgeOf g)).length ≤ 1) :
    ∃ l, facePolygons ps st base reg part f = some l ∧ FaceDone ps pts sort pieces c st.m0 f l := by
  unfold facePolygons
  by_cases hc : c.faceEdges f = []
  · have : ¬ Boundary.entry st f = true := fun h => (G.entry_iff hf).1 h hc
    obtain ⟨p, p1, p2⟩ := G.copied hf hc
    rw [if_neg this, p1]
    exact ⟨[p], rfl, fun _ => ⟨p, rfl, p2⟩, fun h => absurd hc h⟩
  · rw [if_pos ((G.entry_iff hf).2 hc)]
    obtain ⟨l, E, I, h1, h2, h3, h4⟩ := G.cut_few hp hf hc one (few hc)
    exact ⟨l, h1, fun h => absurd h hc, fun _ => ⟨E, I, G.boundaryOf hf h2, h3, h4⟩⟩

end Mcut.Trace
