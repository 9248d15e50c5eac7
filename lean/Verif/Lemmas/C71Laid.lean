import Verif.Lemmas.C71Face

/-! Lemmas for C71: the boundary and the cut edges of a face. -/
namespace Mcut.Trace
open Mcut.Hmesh Mcut.Registry Mcut.CutEdges Mcut.Boundary
variable {P : Type} {d : P} {ps : Mesh P} {base : Nat} {pts : Nat → List Nat} {sort : Nat → Nat → List Nat → List Nat} {edges : List Nat} {c : CutEdges.St P} {st : Boundary.St P}
  {pieces : Nat → List Nat} {reg : List (Nat × Nat)}

theorem ends_of {m : Mesh P} (hr : Reachable d m) {x : Nat} (hx : LiveH m x) :
    (m.edgeVertex (edgeOf x) 0 = m.target x ∧ m.edgeVertex (edgeOf x) 1 = src m x) ∨ (m.edgeVertex (edgeOf x) 0 = src m x ∧ m.edgeVertex (edgeOf x) 1 = m.target x) := by
  obtain ⟨x1, -⟩ := src_of hr hx
  rw [x1]
  unfold Mesh.edgeVertex edgeOf opposite
  by_cases h : x % 2 = 0
  · left; rw [if_pos h]; exact ⟨by congr 1; omega, by congr 1; omega⟩
  · right; rw [if_neg h]; exact ⟨by congr 1; omega, by congr 1; omega⟩

theorem disjoint_of {pieces : Nat → List Nat} : ∀ {l : List Nat} {a b : Nat}, l.Pairwise (Function.onFun List.Disjoint pieces) → a ∈ l → b ∈ l → a ≠ b → List.Disjoint (pieces a) (pieces b) := by
  intro l
  induction l with
  | nil => intro a b _ ha; cases ha
  | cons x l ih =>
    intro a b hp ha hb hab
    rw [List.pairwise_cons] at hp
    rcases List.mem_cons.1 ha with h1 | h1 <;> rcases List.mem_cons.1 hb with h2 | h2
    · exact absurd (h1.trans h2.symm) hab
    · rw [h1]; exact hp.1 b h2
    · rw [h2]; exact fun y h3 h4 => hp.1 a h1 h4 h3
    · exact ih hp.2 h1 h2 hab

/-- The halfedges along one edge of the face. -/
theorem Given.on_side (G : Given d ps base pts sort edges c st pieces reg) {f h x : Nat} (hf : LiveF ps f) (hh : h ∈ ps.fh f) (hx : x ∈ side ps st.m0 pts sort pieces h) :
    LiveH st.m0 x ∧ edgeOf x ∈ pieces (edgeOf h) ∧ (src st.m0 x = src ps h ∨ src st.m0 x ∈ pts (edgeOf h)) ∧ (st.m0.target x = ps.target h ∨ st.m0.target x ∈ pts (edgeOf h)) := by
  have hl := (G.live hf hh).1
  obtain ⟨s1, s2, s3, s4⟩ := G.sides hl
  obtain ⟨q, q1, q2⟩ := G.path hl
  refine ⟨s4 x hx, ?_, ?_, ?_⟩
  · have : edgeOf x ∈ piecesOf pieces h := by rw [← s1]; exact List.mem_map.2 ⟨x, hx, rfl⟩
    unfold piecesOf at this
    split at this
    · exact this
    · exact List.mem_reverse.1 this
  · have : src st.m0 x ∈ (pathOf ps pts sort h).dropLast := by rw [← s2]; exact List.mem_map.2 ⟨x, hx, rfl⟩
    rw [q2, ← List.cons_append, List.dropLast_concat] at this
    rcases List.mem_cons.1 this with h | h
    · exact .inl h
    · exact .inr (q1.subset h)
  · have : st.m0.target x ∈ (pathOf ps pts sort h).tail := by rw [← s3]; exact List.mem_map.2 ⟨x, hx, rfl⟩
    rw [q2, List.tail_cons] at this
    rcases List.mem_append.1 this with h | h
    · exact .inr (q1.subset h)
    · exact .inl (by simpa using h)

theorem Given.old (G : Given d ps base pts sort edges c st pieces reg) {f h : Nat} (hf : LiveF ps f) (hh : h ∈ ps.fh f) : src ps h < base ∧ ps.target h < base := by
  have hl := (G.live hf hh).1
  have C := C29_consistent G.ready.psOk
  obtain ⟨s1, -, -, -, s5⟩ := src_of G.ready.psOk hl
  exact ⟨by rw [s1]; exact G.ready.old _ (C.opp _ s5).2.2.2.2.2.2.1, G.ready.old _ (C.opp _ hl).2.2.2.2.2.2.1⟩

theorem Given.pts_base (G : Given d ps base pts sort edges c st pieces reg) {e v : Nat} (h : v ∈ pts e) : base ≤ v ∧ (reg[v - base]?).map (·.1) = some e := by
  refine ⟨((G.ready.points e).2 v h).1, ?_⟩
  obtain ⟨i, g, rfl, hi⟩ := (G.points e v).1 h
  rw [Nat.add_sub_cancel_left, hi]; rfl

theorem Given.piece_boundary (G : Given d ps base pts sort edges c st pieces reg) {f h x : Nat} (hf : LiveF ps f) (hh : h ∈ ps.fh f) (hx : x ∈ side ps st.m0 pts sort pieces h) :
    isBoundary st.m0 base reg (edgeOf x) = true := by
  obtain ⟨hl, -, hs, ht⟩ := G.on_side hf hh hx
  obtain ⟨o1, o2⟩ := G.old hf hh
  have key : ¬ (base ≤ src st.m0 x ∧ base ≤ st.m0.target x) ∨ (reg[src st.m0 x - base]?).map (·.1) = (reg[st.m0.target x - base]?).map (·.1) := by
    rcases hs with hs | hs
    · left; rw [hs]; omega
    · rcases ht with ht | ht
      · left; rw [ht]; omega
      · right; rw [(G.pts_base hs).2, (G.pts_base ht).2]
  unfold isBoundary
  simp only [Bool.or_eq_true, Bool.not_eq_true', Bool.and_eq_false_iff, decide_eq_false_iff_not, beq_iff_eq]
  rcases ends_of G.divided.valid hl with ⟨e1, e2⟩ | ⟨e1, e2⟩
  · rw [e1, e2]
    rcases key with h | h
    · left; omega
    · right; exact h.symm
  · rw [e1, e2]
    rcases key with h | h
    · left; omega
    · right; exact h

theorem Given.cut_kept (G : Given d ps base pts sort edges c st pieces reg) {f e : Nat} (he : e ∈ c.faceEdges f) :
    LiveE st.m0 e ∧ st.m0.edgeVertex e 0 = c.m0.edgeVertex e 0 ∧ st.m0.edgeVertex e 1 = c.m0.edgeVertex e 1 := G.divided.kept e (G.cutLt f e he)

theorem Given.cut_inside (G : Given d ps base pts sort edges c st pieces reg) {f e : Nat} (he : e ∈ c.faceEdges f) : isBoundary st.m0 base reg e = false := by
  obtain ⟨-, k1, k2⟩ := G.cut_kept he
  have h0 := G.cutEnds f e he _ (.inl rfl)
  have h1 := G.cutEnds f e he _ (.inr rfl)
  have ha := G.apart f e he
  unfold isBoundary
  rw [k1, k2]
  simp only [h0, h1, decide_true, Bool.and_self, Bool.not_true, Bool.false_or, beq_eq_false_iff_ne, ne_eq]
  exact ha

theorem Given.edges_nodup (G : Given d ps base pts sort edges c st pieces reg) {f : Nat} (hf : LiveF ps f) : ((outline ps st.m0 pts sort pieces f).map edgeOf).Nodup := by
  have hnd : (edges.flatMap pieces).Nodup := G.divided.numbers.1.nodup_iff.2 (List.nodup_range')
  rw [List.nodup_flatMap] at hnd
  unfold outline
  rw [List.map_flatMap, List.nodup_flatMap]
  have hin : ∀ h ∈ ps.fh f, edgeOf h ∈ edges := fun h hh => (G.all.2 _).2 (G.live hf hh).2.1
  have hmem : ∀ h ∈ ps.fh f, ∀ x ∈ (side ps st.m0 pts sort pieces h).map edgeOf, x ∈ pieces (edgeOf h) := by
    intro h hh x hx
    obtain ⟨y, hy, rfl⟩ := List.mem_map.1 hx
    exact (G.on_side hf hh hy).2.1
  constructor
  · intro h hh
    rw [(G.sides (G.live hf hh).1).1]
    unfold piecesOf
    split
    · exact hnd.1 _ (hin h hh)
    · exact List.nodup_reverse.2 (hnd.1 _ (hin h hh))
  · refine List.Nodup.pairwise_of_forall_ne ((C29_consistent G.ready.psOk).face_list f hf).2.1 ?_
    intro a ha b hb hab
    simp only [Function.onFun]
    intro x hxa hxb
    have hne : edgeOf a ≠ edgeOf b := fun h => hab (G.edge_inj hf ha hb h)
    have hd := disjoint_of hnd.2 (hin a ha) (hin b hb) hne
    exact hd (hmem a ha x hxa) (hmem b hb x hxb)

/-- The two parts of the edges of the face. -/
theorem Given.parts (G : Given d ps base pts sort edges c st pieces reg) {part : (Nat → Bool) → List Nat → List Nat × List Nat} (hp : IsPartition part) {f : Nat} (hf : LiveF ps f)
    (hc : c.faceEdges f ≠ []) : (part (isBoundary st.m0 base reg) (st.faceEdges f)).1.Perm ((outline ps st.m0 pts sort pieces f).map edgeOf) ∧
      (part (isBoundary st.m0 base reg) (st.faceEdges f)).2.Perm (c.faceEdges f) := by
  obtain ⟨p1, p2⟩ := hp (isBoundary st.m0 base reg) (st.faceEdges f)
  have hall := G.divided.faces f hf hc
  have hcut : ∀ e ∈ c.faceEdges f, isBoundary st.m0 base reg e = false := fun e he => G.cut_inside he
  have hpe : ((ps.fh f).flatMap (fun h => pieces (edgeOf h))).Perm ((outline ps st.m0 pts sort pieces f).map edgeOf) := by
    unfold outline
    rw [List.map_flatMap]
    refine List.Perm.flatMap_left _ (fun h hh => ?_)
    rw [(G.sides (G.live hf hh).1).1]
    unfold piecesOf
    split
    · exact List.Perm.refl _
    · exact (List.reverse_perm _).symm
  have hpc : ∀ e ∈ (ps.fh f).flatMap (fun h => pieces (edgeOf h)), isBoundary st.m0 base reg e = true := by
    intro e he
    obtain ⟨y, hy, rfl⟩ := List.mem_map.1 (hpe.subset he)
    obtain ⟨h, hh, hy⟩ := List.mem_flatMap.1 hy
    exact G.piece_boundary hf hh hy
  constructor
  · refine (p1.trans (hall.filter _)).trans ?_
    rw [List.filter_append, List.filter_eq_nil_iff.2 (fun e he => by rw [hcut e he]; simp), List.filter_eq_self.2 hpc, List.nil_append]
    exact hpe
  · refine (p2.trans (hall.filter _)).trans ?_
    rw [List.filter_append, List.filter_eq_self.2 (fun e he => by rw [hcut e he]; rfl), List.filter_eq_nil_iff.2 (fun e he => by rw [hpc e he]; simp), List.append_nil]

theorem mem_both {is : List Nat} {h : Nat} : h ∈ is.flatMap (fun e => [halfedgeOf e 0, halfedgeOf e 1]) ↔ edgeOf h ∈ is := by
  rw [List.mem_flatMap]
  constructor
  · rintro ⟨e, he, hh⟩
    have : edgeOf h = e := by
      simp only [List.mem_cons, List.not_mem_nil, or_false] at hh
      unfold halfedgeOf at hh; unfold edgeOf; omega
    rw [this]; exact he
  · intro hh
    refine ⟨edgeOf h, hh, ?_⟩
    simp only [List.mem_cons, List.not_mem_nil, or_false]
    exact half_of rfl

theorem edgeOf_opposite (h : Nat) : edgeOf (opposite h) = edgeOf h := by unfold edgeOf opposite; split <;> omega

/-- Boundary and cut edges of a face are arranged as needed for tracing. -/
theorem Given.laid (G : Given d ps base pts sort edges c st pieces reg) {f : Nat} (hf : LiveF ps f) {E is : List Nat} (hE : E ~r outline ps st.m0 pts sort pieces f)
    (his : is.Perm (c.faceEdges f)) : Laid st.m0 E (is.flatMap (fun e => [halfedgeOf e 0, halfedgeOf e 1])) := by
  have hp := hE.perm
  have hr := G.divided.valid
  have hin : ∀ x ∈ E, ∃ h ∈ ps.fh f, x ∈ side ps st.m0 pts sort pieces h := fun x hx => List.mem_flatMap.1 (hp.subset hx)
  have hring : Ringed st.m0 E := by
    obtain ⟨n, hn⟩ := hE.symm
    rw [← hn]; exact (G.ring hf).rotate n
  have hsrc : (E.map (src st.m0)).Nodup := (hp.map _).nodup_iff.2 (G.sources hf)
  have htgt : (E.map st.m0.target).Nodup := (hp.map _).nodup_iff.2 (G.targets hf)
  have hedg : (E.map edgeOf).Nodup := (hp.map _).nodup_iff.2 (G.edges_nodup hf)
  have hmemI : ∀ h, h ∈ is.flatMap (fun e => [halfedgeOf e 0, halfedgeOf e 1]) ↔ edgeOf h ∈ c.faceEdges f := fun h => by rw [mem_both, his.mem_iff]
  have hliveE : ∀ x ∈ E, LiveH st.m0 x := fun x hx => by obtain ⟨h, hh, hx'⟩ := hin x hx; exact (G.on_side hf hh hx').1
  have hliveI : ∀ x, edgeOf x ∈ c.faceEdges f → LiveH st.m0 x := fun x hx => ((reachable_wf hr).liveH_iff x).2 (G.cut_kept hx).1
  have hnew : ∀ x ∈ E, c.m0.nE ≤ edgeOf x := by
    intro x hx
    obtain ⟨h, hh, hx'⟩ := hin x hx
    exact (G.pieceLive (G.live hf hh).2.1 _ (G.on_side hf hh hx').2.1).2
  have hbaseI : ∀ x, edgeOf x ∈ c.faceEdges f → base ≤ src st.m0 x ∧ base ≤ st.m0.target x := by
    intro x hx
    obtain ⟨-, k1, k2⟩ := G.cut_kept hx
    have h0 := G.cutEnds f _ hx _ (.inl rfl)
    have h1 := G.cutEnds f _ hx _ (.inr rfl)
    rcases ends_of hr (hliveI x hx) with ⟨e1, e2⟩ | ⟨e1, e2⟩
    · exact ⟨by rw [← e2, k2]; exact h1, by rw [← e1, k1]; exact h0⟩
    · exact ⟨by rw [← e1, k1]; exact h0, by rw [← e2, k2]; exact h1⟩
  have hends : ∀ x, edgeOf x ∈ c.faceEdges f → EndsIn c.m0 (edgeOf x) (src st.m0 x) := by
    intro x hx
    obtain ⟨-, k1, k2⟩ := G.cut_kept hx
    unfold EndsIn
    rcases ends_of hr (hliveI x hx) with ⟨e1, e2⟩ | ⟨e1, e2⟩
    · right; rw [← k2, e2]
    · left; rw [← k1, e1]
  have hsame : ∀ x y, edgeOf x ∈ c.faceEdges f → edgeOf x = edgeOf y → src st.m0 x = src st.m0 y → x = y := by
    intro x y hx hxy hs
    by_contra hne
    have : y = opposite x := by unfold edgeOf at hxy; unfold opposite; split <;> omega
    subst this
    obtain ⟨-, s2, s3, -⟩ := src_of hr (hliveI x hx)
    rw [s3] at hs
    exact s2 hs
  have hlen : 3 ≤ E.length := by
    rw [hp.length_eq]
    unfold outline
    have h3 := ((C29_consistent G.ready.psOk).face_list f hf).1
    have : ∀ l : List Nat, (∀ h ∈ l, h ∈ ps.fh f) → l.length ≤ (l.flatMap (side ps st.m0 pts sort pieces)).length := by
      intro l
      induction l with
      | nil => intro _; simp
      | cons a l ih =>
        intro hl
        have h1 := ih (fun h hh => hl h (by simp [hh]))
        have hla := (G.live hf (hl a (by simp))).1
        obtain ⟨q, -, q2⟩ := G.path hla
        have h2 : ((side ps st.m0 pts sort pieces a).map (src st.m0)).length = ((pathOf ps pts sort a).dropLast).length := by rw [(G.sides hla).2.1]
        rw [q2, ← List.cons_append, List.dropLast_concat] at h2
        simp only [List.length_map, List.length_cons] at h2
        rw [List.flatMap_cons, List.length_append, List.length_cons]
        omega
    exact Nat.le_trans h3 (this _ (fun h hh => hh))
  refine ⟨?_, ?_, ?_, ?_, ?_, ?_, ?_, ?_, ?_, ?_, ?_, ?_, ?_⟩
  · rw [List.nodup_append]
    refine ⟨List.Nodup.of_map _ hsrc, ?_, ?_⟩
    · rw [List.nodup_flatMap]
      refine ⟨fun e _ => by unfold halfedgeOf; simp, List.Nodup.pairwise_of_forall_ne (his.nodup_iff.2 (G.cutNodup f)) ?_⟩
      intro a _ b _ hab
      simp only [Function.onFun]
      intro x hxa hxb
      simp only [List.mem_cons, List.not_mem_nil, or_false] at hxa hxb
      unfold halfedgeOf at hxa hxb
      omega
    · intro a ha b hb hab
      subst hab
      have h1 := hnew a ha
      have h2 := G.cutLt f _ ((hmemI a).1 hb)
      omega
  · rintro h (hh | hh)
    · exact (src_of hr (hliveE h hh)).2.1
    · exact (src_of hr (hliveI h ((hmemI h).1 hh))).2.1
  · intro h hh
    obtain ⟨s1, -, s3, -⟩ := src_of hr (hliveI h ((hmemI h).1 hh))
    exact ⟨s3, s1.symm⟩
  · intro h hh
    rw [hmemI, edgeOf_opposite]; exact (hmemI h).1 hh
  · intro h hh; exact (src_of hr (hliveI h ((hmemI h).1 hh))).2.2.2.1
  · intro h hh
    refine ⟨fun ho => ?_, fun ho => ?_⟩
    · have := List.inj_on_of_nodup_map hedg hh ho (edgeOf_opposite h).symm
      unfold opposite at this; split at this <;> omega
    · have h1 := hnew h hh
      have h2 := G.cutLt f _ ((hmemI _).1 ho)
      rw [edgeOf_opposite] at h2
      omega
  · intro i h g hi hg
    obtain ⟨g', hg1, hg2⟩ := hring.next hi
    have hlt : i + 1 < E.length := (List.getElem?_eq_some_iff.1 hg).1
    rw [Nat.mod_eq_of_lt hlt, hg] at hg1
    rw [Option.some.inj hg1]; exact hg2
  · intro h g hh hg
    rw [List.getLast?_eq_getElem?] at hg
    obtain ⟨g', hg1, hg2⟩ := hring.next hg
    rw [show (E.length - 1 + 1) % E.length = 0 by rw [Nat.sub_add_cancel (by omega), Nat.mod_self], ← List.head?_eq_getElem?, hh] at hg1
    rw [Option.some.inj hg1]; exact hg2
  · intro h hh g hg hs; exact List.inj_on_of_nodup_map hsrc hh hg hs
  · intro h hh g hg hs; exact List.inj_on_of_nodup_map htgt hh hg hs
  · intro h hh g hg g' hg' s1 s2
    have hg := (hmemI g).1 hg
    have hg' := (hmemI g').1 hg'
    obtain ⟨x, hx, hx'⟩ := hin h hh
    have hb := (hbaseI g hg).1
    rw [s1] at hb
    rcases (G.on_side hf hx hx').2.2.1 with h1 | h1
    · have := (G.old hf hx).1; rw [h1] at hb; omega
    · have hon : OnEdge ps (edgeOf x) f := by
        have hfx := (G.live hf hx).2.2
        unfold OnEdge
        rcases half_of (rfl : edgeOf x = edgeOf x) with h' | h'
        · left; rw [← h']; exact hfx
        · right; rw [← h']; exact hfx
      refine hsame g g' hg ?_ (s1.trans s2.symm)
      exact G.one f _ _ hon h1 _ hg _ hg' (s1 ▸ hends g hg) (s2 ▸ hends g' hg')
  · intro a ha b hb x hx s1 s2
    have ha := (hmemI a).1 ha
    have hb := (hmemI b).1 hb
    have hx := (hmemI x).1 hx
    rcases G.two f (src st.m0 a) _ ha _ hb _ hx (hends a ha) (s1 ▸ hends b hb) (by rw [s1, s2]; exact hends x hx) with h | h | h
    · exact .inl (hsame a b ha h s1)
    · exact .inr (.inl (hsame b x hb h s2))
    · exact .inr (.inr (hsame a x ha h (s1.trans s2)))
  · rintro h hh g (hg | hg) s1
    · exact hring.noDouble hsrc hlen hh hg s1
    · intro s2
      have hg := (hmemI g).1 hg
      obtain ⟨x, hx, hx'⟩ := hin h hh
      obtain ⟨b1, b2⟩ := hbaseI g hg
      obtain ⟨o1, o2⟩ := G.old hf hx
      obtain ⟨-, -, h1, h2⟩ := G.on_side hf hx hx'
      have p1 : src st.m0 h ∈ pts (edgeOf x) := by
        rcases h1 with h1 | h1
        · rw [s2, h1] at b2; omega
        · exact h1
      have p2 : st.m0.target h ∈ pts (edgeOf x) := by
        rcases h2 with h2 | h2
        · rw [s1, h2] at b1; omega
        · exact h2
      rw [← s2] at p1
      rw [← s1] at p2
      have r1 := (G.pts_base p1).2
      have r2 := (G.pts_base p2).2
      obtain ⟨-, k1, k2⟩ := G.cut_kept hg
      have := G.apart f _ hg
      rw [← k1, ← k2] at this
      rcases ends_of hr (hliveI g hg) with ⟨e1, e2⟩ | ⟨e1, e2⟩
      · rw [e1, e2, r1, r2] at this; exact this rfl
      · rw [e1, e2, r1, r2] at this; exact this rfl

end Mcut.Trace
