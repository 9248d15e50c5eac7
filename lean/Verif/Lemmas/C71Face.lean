import Verif.Lemmas.C71Outline

/-! Lemmas for C71: the halfedges of a face. -/
namespace Mcut.Trace
open Mcut.Hmesh Mcut.Registry Mcut.CutEdges Mcut.Boundary
variable {P : Type}

theorem half_of {h e : Nat} (he : edgeOf h = e) : h = halfedgeOf e 0 ∨ h = halfedgeOf e 1 := by unfold edgeOf at he; unfold halfedgeOf; omega

/-- The walk around a closed list of halfedges. -/
theorem outside_spec {d : P} {m : Mesh P} (hr : Reachable d m) {base : Nat} {reg : List (Nat × Nat)} :
    ∀ (rest : List Nat) (cur n : Nat) (edges : List Nat), rest.length ≤ n → (∀ h ∈ cur :: rest, LiveH m h) → (cur :: rest).IsChain (fun a b => m.target a = src m b) →
      ((cur :: rest).map (src m)).Nodup → ((cur :: rest).map m.target).Nodup → ((cur :: rest).map edgeOf).Nodup → edges.Perm ((cur :: rest).map edgeOf) →
      (∀ e ∈ edges, isBoundary m base reg e = true) → outside m base reg n cur edges = cur :: rest := by
  intro rest
  induction rest with
  | nil =>
    intro cur n edges _ _ _ _ _ _ hp _
    have : edges = [edgeOf cur] := List.perm_singleton.1 (by simpa using hp)
    subst this
    cases n with
    | zero => rfl
    | succ n => unfold outside; simp [nextOutside]
  | cons g rest ih =>
    intro cur n edges hn hl hch hs ht he hp hb
    cases n with
    | zero => simp at hn
    | succ n =>
      have hnd : edges.Nodup := hp.nodup_iff.2 he
      have hp' : (edges.filter (· != edgeOf cur)).Perm ((g :: rest).map edgeOf) := by
        have h1 := hp.filter (· != edgeOf cur)
        refine h1.trans (List.Perm.of_eq ?_)
        rw [List.map_cons, List.filter_cons, if_neg (by simp), List.filter_eq_self]
        intro x hx
        rw [List.map_cons, List.nodup_cons] at he
        simp only [bne_iff_ne, ne_eq]
        rintro rfl
        exact he.1 hx
      have hb' : ∀ e ∈ edges.filter (· != edgeOf cur), isBoundary m base reg e = true := fun e h => hb e (List.mem_filter.1 h).1
      have hcg := (List.isChain_cons_cons.1 hch).1
      have hlg := hl g (by simp)
      obtain ⟨s1, s2, s3, -⟩ := src_of hr hlg
      have hnext : nextOutside m base reg (m.target cur) (edges.filter (· != edgeOf cur)) = some g := by
        have hmem : edgeOf g ∈ edges.filter (· != edgeOf cur) := hp'.symm.subset (by simp)
        have hpg : ((decide (m.edgeVertex (edgeOf g) 0 = m.target cur) || decide (m.edgeVertex (edgeOf g) 1 = m.target cur)) && isBoundary m base reg (edgeOf g)) = true := by
          rw [hb' _ hmem, Bool.and_true, Bool.or_eq_true, decide_eq_true_eq, decide_eq_true_eq, hcg, s1]
          rcases half_of (rfl : edgeOf g = edgeOf g) with h | h
          · right
            have : opposite g = halfedgeOf (edgeOf g) 1 := by unfold opposite; unfold halfedgeOf at *; rw [if_pos (by omega)]; omega
            rw [this]; rfl
          · left
            have : opposite g = halfedgeOf (edgeOf g) 0 := by unfold opposite; unfold halfedgeOf at *; rw [if_neg (by omega)]; omega
            rw [this]; rfl
        unfold nextOutside
        cases hf : (edges.filter (· != edgeOf cur)).find? (fun e => (decide (m.edgeVertex e 0 = m.target cur) || decide (m.edgeVertex e 1 = m.target cur)) && isBoundary m base reg e) with
        | none =>
          rw [List.find?_eq_none] at hf
          exact absurd hpg (hf _ hmem)
        | some e =>
          have h1 := List.mem_of_find?_eq_some hf
          have h2 := List.find?_some hf
          rw [Bool.and_eq_true, Bool.or_eq_true, decide_eq_true_eq, decide_eq_true_eq] at h2
          obtain ⟨x, hx, rfl⟩ := List.mem_map.1 (hp'.subset h1)
          have hlx := hl x (List.mem_cons_of_mem _ hx)
          obtain ⟨x1, x2, x3, -⟩ := src_of hr hlx
          have hends : src m x = m.target cur ∨ m.target x = m.target cur := by
            rcases half_of (rfl : edgeOf x = edgeOf x) with h | h
            · have ho : opposite x = halfedgeOf (edgeOf x) 1 := by unfold opposite; unfold halfedgeOf at *; rw [if_pos (by omega)]; omega
              rcases h2.1 with h' | h'
              · right; rw [← h']; conv_lhs => rw [h]
                rfl
              · left; rw [x1, ho]; exact h'
            · have ho : opposite x = halfedgeOf (edgeOf x) 0 := by unfold opposite; unfold halfedgeOf at *; rw [if_neg (by omega)]; omega
              rcases h2.1 with h' | h'
              · left; rw [x1, ho]; exact h'
              · right; rw [← h']; conv_lhs => rw [h]
                rfl
          have hxg : x = g := by
            rcases hends with h | h
            · rw [List.map_cons, List.nodup_cons] at hs
              exact List.inj_on_of_nodup_map hs.2 hx (by simp) (h.trans hcg)
            · exfalso
              rw [List.map_cons, List.nodup_cons] at ht
              exact ht.1 (List.mem_map.2 ⟨x, hx, h⟩)
          subst hxg
          simp only [Option.map_some, Option.some.injEq]
          rcases half_of (rfl : edgeOf x = edgeOf x) with h | h
          · rw [← h, if_pos hcg.symm]
          · have ho : opposite x = halfedgeOf (edgeOf x) 0 := by unfold opposite; unfold halfedgeOf at *; rw [if_neg (by omega)]; omega
            rw [if_neg, ← h]
            rw [← ho, s3, hcg]; exact fun h => s2 h.symm
      unfold outside
      simp only [hnext]
      rw [ih g n _ (by simpa using hn) (fun h hh => hl h (List.mem_cons_of_mem _ hh)) hch.tail (List.nodup_cons.1 hs).2 (List.nodup_cons.1 ht).2 (List.nodup_cons.1 he).2 hp' hb']

variable {d : P} {ps : Mesh P} {base : Nat} {pts : Nat → List Nat} {sort : Nat → Nat → List Nat → List Nat} {edges : List Nat} {c : CutEdges.St P} {st : Boundary.St P}
  {pieces : Nat → List Nat} {reg : List (Nat × Nat)}

/-- The new edges along a halfedge of "ps". -/
def piecesOf (pieces : Nat → List Nat) (h : Nat) : List Nat := if h % 2 = 1 then pieces (edgeOf h) else (pieces (edgeOf h)).reverse

/-- The new halfedges along a halfedge of "ps". -/
def side (ps m0 : Mesh P) (pts : Nat → List Nat) (sort : Nat → Nat → List Nat → List Nat) (pieces : Nat → List Nat) (h : Nat) : List Nat :=
  List.zipWith (out m0) (pathOf ps pts sort h) (piecesOf pieces h)

theorem Given.along (G : Given d ps base pts sort edges c st pieces reg) {e : Nat} (he : LiveE ps e) :
    ∃ q, q.Perm (pts e) ∧ Boundary.along ps pts sort e = ps.edgeVertex e 0 :: (q ++ [ps.edgeVertex e 1]) := by
  unfold Boundary.along
  split
  · rename_i h1
    obtain ⟨q, q1, q2⟩ := G.arranged e he h1
    exact ⟨q, q1, q2⟩
  · exact ⟨pts e, List.Perm.refl _, rfl⟩

theorem Given.live (G : Given d ps base pts sort edges c st pieces reg) {f h : Nat} (hf : LiveF ps f) (hh : h ∈ ps.fh f) : LiveH ps h ∧ LiveE ps (edgeOf h) ∧ ps.face h = some f := by
  obtain ⟨h1, h2⟩ := ((C29_consistent G.ready.psOk).face_list f hf).2.2 h hh
  exact ⟨h1, ((reachable_wf G.ready.psOk).liveH_iff h).1 h1, h2⟩

theorem Given.path (G : Given d ps base pts sort edges c st pieces reg) {h : Nat} (hl : LiveH ps h) :
    ∃ q, q.Perm (pts (edgeOf h)) ∧ pathOf ps pts sort h = src ps h :: (q ++ [ps.target h]) := by
  have W := reachable_wf G.ready.psOk
  obtain ⟨q, q1, q2⟩ := G.along ((W.liveH_iff h).1 hl)
  obtain ⟨s1, -⟩ := src_of G.ready.psOk hl
  unfold pathOf
  rw [s1]
  change Boundary.along ps pts sort (edgeOf h) = _ at q2
  split
  · rename_i ho
    refine ⟨q, q1, ?_⟩
    rw [q2]
    have h1 : ps.edgeVertex (h / 2) 0 = ps.target (opposite h) := by unfold Mesh.edgeVertex opposite; rw [if_neg (by omega)]; congr 1; omega
    have h2 : ps.edgeVertex (h / 2) 1 = ps.target h := by unfold Mesh.edgeVertex; congr 1; omega
    rw [h1, h2]
  · rename_i ho
    refine ⟨q.reverse, (List.reverse_perm q).trans q1, ?_⟩
    rw [q2]
    have h1 : ps.edgeVertex (h / 2) 1 = ps.target (opposite h) := by unfold Mesh.edgeVertex opposite; rw [if_pos (by omega)]; congr 1; omega
    have h2 : ps.edgeVertex (h / 2) 0 = ps.target h := by unfold Mesh.edgeVertex; congr 1; omega
    rw [h1, h2]; simp

theorem Given.pieceLive (G : Given d ps base pts sort edges c st pieces reg) {e : Nat} (he : LiveE ps e) : ∀ x ∈ pieces e, LiveE st.m0 x ∧ c.m0.nE ≤ x := by
  intro x hx
  have := G.divided.numbers.1.subset (List.mem_flatMap.2 ⟨e, (G.all.2 e).2 he, hx⟩)
  rw [List.mem_range'] at this
  obtain ⟨i, hi, rfl⟩ := this
  refine ⟨⟨by omega, by rw [G.divided.numbers.2.2]; simp⟩, by omega⟩

theorem Given.sides (G : Given d ps base pts sort edges c st pieces reg) {h : Nat} (hl : LiveH ps h) :
    (side ps st.m0 pts sort pieces h).map edgeOf = piecesOf pieces h ∧ (side ps st.m0 pts sort pieces h).map (src st.m0) = (pathOf ps pts sort h).dropLast ∧
      (side ps st.m0 pts sort pieces h).map st.m0.target = (pathOf ps pts sort h).tail ∧ (∀ x ∈ side ps st.m0 pts sort pieces h, LiveH st.m0 x) := by
  have he : LiveE ps (edgeOf h) := ((reachable_wf G.ready.psOk).liveH_iff h).1 hl
  have L := G.divided.leads _ ((G.all.2 _).2 he)
  have hlive : ∀ x ∈ piecesOf pieces h, LiveE st.m0 x := by
    intro x hx
    unfold piecesOf at hx
    split at hx
    · exact (G.pieceLive he x hx).1
    · exact (G.pieceLive he x (List.mem_reverse.1 hx)).1
  have L' : Leads st.m0 (pathOf ps pts sort h) (piecesOf pieces h) := by
    unfold pathOf piecesOf
    split
    · exact L
    · exact leads_reverse L
  exact path_spec G.divided.valid _ _ L' hlive

/-- The new halfedges along the boundary of face `f`. -/
def outline (ps m0 : Mesh P) (pts : Nat → List Nat) (sort : Nat → Nat → List Nat → List Nat) (pieces : Nat → List Nat) (f : Nat) : List Nat :=
  (ps.fh f).flatMap (side ps m0 pts sort pieces)

/-- Sources and targets along a chain of paths. -/
theorem flat_ring {s t : Nat → Nat} {A B q : Nat → List Nat} : ∀ (l : List Nat) (h0 : Nat), (∀ h ∈ h0 :: l, A h = s h :: q h ∧ B h = q h ++ [t h]) →
    (h0 :: l).IsChain (fun a b => t a = s b) → s h0 :: (h0 :: l).flatMap B = (h0 :: l).flatMap A ++ [t ((h0 :: l).getLast (by simp))] := by
  intro l
  induction l with
  | nil =>
    intro h0 hq _
    obtain ⟨h1, h2⟩ := hq h0 (by simp)
    simp [h1, h2]
  | cons g l ih =>
    intro h0 hq hc
    obtain ⟨h1, h2⟩ := hq h0 (by simp)
    have := ih g (fun h hh => hq h (List.mem_cons_of_mem _ hh)) hc.tail
    have hst := (List.isChain_cons_cons.1 hc).1
    rw [List.flatMap_cons, List.flatMap_cons (xs := g :: l) (f := A), h1, h2, List.getLast_cons (by simp), List.append_assoc, List.append_assoc, ← this, hst]
    rfl

theorem Given.sourceTarget (G : Given d ps base pts sort edges c st pieces reg) {f : Nat} (hf : LiveF ps f) :
    ∃ h0 l, ps.fh f = h0 :: l ∧ (h0 :: l).IsChain (fun a b => ps.target a = src ps b) ∧ ps.target ((h0 :: l).getLast (by simp)) = src ps h0 := by
  have K := (C29_consistent G.ready.psOk).face_list f hf
  have cyc := C29_cycle G.ready.psOk f hf
  match hfh : ps.fh f with
  | [] => rw [hfh] at K; simp at K
  | h0 :: l =>
    rw [hfh] at cyc
    refine ⟨h0, l, rfl, ?_, ?_⟩
    · rw [List.isChain_iff_getElem]
      intro i hi
      obtain ⟨a, b, h1, h2, -, -, h5⟩ := cyc i (by omega)
      rw [Nat.mod_eq_of_lt hi] at h2
      obtain ⟨_, e1⟩ := List.getElem?_eq_some_iff.1 h1
      obtain ⟨_, e2⟩ := List.getElem?_eq_some_iff.1 h2
      rw [e1, e2]
      unfold src; rw [h5]; rfl
    · obtain ⟨a, b, h1, h2, -, -, h5⟩ := cyc l.length (by simp)
      have hz : (l.length + 1) % (h0 :: l).length = 0 := by simp
      rw [hz] at h2
      simp only [List.getElem?_cons_zero, Option.some.injEq] at h2
      subst h2
      have : (h0 :: l).getLast (by simp) = a := by
        rw [List.getLast_eq_getElem]
        obtain ⟨_, e1⟩ := List.getElem?_eq_some_iff.1 h1
        simp only [List.length_cons, Nat.add_one_sub_one]
        exact e1
      rw [this]
      unfold src; rw [h5]; rfl

/-- The boundary of a face is a closed list of halfedges. -/
theorem Given.ring (G : Given d ps base pts sort edges c st pieces reg) {f : Nat} (hf : LiveF ps f) : Ringed st.m0 (outline ps st.m0 pts sort pieces f) := by
  classical
  obtain ⟨h0, l, hfh, hch, hlast⟩ := G.sourceTarget hf
  have hl : ∀ h ∈ ps.fh f, LiveH ps h := fun h hh => (G.live hf hh).1
  let q : Nat → List Nat := fun h => if hl : LiveH ps h then (G.path hl).choose else []
  have hq : ∀ h, LiveH ps h → pathOf ps pts sort h = src ps h :: (q h ++ [ps.target h]) := by
    intro h hlh
    simp only [q, dif_pos hlh]
    exact (G.path hlh).choose_spec.2
  have hS : ∀ h, LiveH ps h → (side ps st.m0 pts sort pieces h).map (src st.m0) = src ps h :: q h := by
    intro h hlh
    rw [(G.sides hlh).2.1, hq h hlh, ← List.cons_append, List.dropLast_concat]
  have hT : ∀ h, LiveH ps h → (side ps st.m0 pts sort pieces h).map st.m0.target = q h ++ [ps.target h] := by
    intro h hlh
    rw [(G.sides hlh).2.2.1, hq h hlh]; rfl
  unfold Ringed outline
  rw [List.map_flatMap, List.map_flatMap]
  rw [hfh] at hl ⊢
  have key := flat_ring (s := src ps) (t := ps.target) (A := fun h => (side ps st.m0 pts sort pieces h).map (src st.m0))
    (B := fun h => (side ps st.m0 pts sort pieces h).map st.m0.target) (q := q) l h0 (fun h hh => ⟨hS h (hl h hh), hT h (hl h hh)⟩) hch
  rw [hlast] at key
  have hA : (h0 :: l).flatMap (fun h => (side ps st.m0 pts sort pieces h).map (src st.m0)) =
      src ps h0 :: (q h0 ++ l.flatMap (fun h => (side ps st.m0 pts sort pieces h).map (src st.m0))) := by
    rw [List.flatMap_cons, hS h0 (hl h0 (by simp))]; rfl
  rw [hA] at key ⊢
  rw [List.cons_append] at key
  rw [(List.cons.inj key).2]
  simp [List.rotate_cons_succ]

theorem pts_edge (G : Given d ps base pts sort edges c st pieces reg) {e e' v : Nat} (h : v ∈ pts e) (h' : v ∈ pts e') : e = e' := by
  obtain ⟨i, g, rfl, hi⟩ := (G.points e v).1 h
  obtain ⟨j, g', hj, hi'⟩ := (G.points e' _).1 h'
  have : i = j := by omega
  subst this
  rw [hi] at hi'
  simp at hi'
  exact hi'.1

/-- No edge occurs twice around a face. -/
theorem Given.edge_inj (G : Given d ps base pts sort edges c st pieces reg) {f a b : Nat} (hf : LiveF ps f) (ha : a ∈ ps.fh f) (hb : b ∈ ps.fh f) (h : edgeOf a = edgeOf b) : a = b := by
  have S := Pairs.C61_simple G.ready.psOk (fun f hf => G.corners f hf)
  by_contra hne
  have : b = opposite a := by unfold edgeOf at h; unfold opposite; split <;> omega
  subst this
  exact S f hf a ha hb

theorem Given.sources (G : Given d ps base pts sort edges c st pieces reg) {f : Nat} (hf : LiveF ps f) : ((outline ps st.m0 pts sort pieces f).map (src st.m0)).Nodup := by
  have hnd : (ps.fh f).Nodup := ((C29_consistent G.ready.psOk).face_list f hf).2.1
  have hold : ∀ h ∈ ps.fh f, src ps h < base ∧ ps.target h < base := by
    intro h hh
    have hl := (G.live hf hh).1
    have C := C29_consistent G.ready.psOk
    obtain ⟨s1, -, -, -, s5⟩ := src_of G.ready.psOk hl
    exact ⟨by rw [s1]; exact G.ready.old _ (C.opp _ s5).2.2.2.2.2.2.1, G.ready.old _ (C.opp _ hl).2.2.2.2.2.2.1⟩
  have hsrc : ∀ a ∈ ps.fh f, ∀ b ∈ ps.fh f, src ps a = src ps b → a = b := by
    -- the sources are the targets, rotated
    obtain ⟨h0, l, hfh, hch, hlast⟩ := G.sourceTarget hf
    have hR : ((ps.fh f).map (src ps)).Nodup := by
      have hc := G.corners f hf
      unfold Mesh.verticesAroundFace at hc
      have key := flat_ring (s := src ps) (t := ps.target) (A := fun h => [src ps h]) (B := fun h => [ps.target h]) (q := fun _ => []) l h0 (fun h _ => ⟨rfl, rfl⟩) hch
      rw [hlast] at key
      have e1 : ∀ (F : Nat → Nat) (l : List Nat), l.flatMap (fun h => [F h]) = l.map F := by
        intro F l; induction l with
        | nil => rfl
        | cons a l ih => simp [ih]
      rw [e1, e1] at key
      rw [hfh] at hc ⊢
      have hp : ((h0 :: l).map (src ps)).Perm ((h0 :: l).map ps.target) := by
        have : (src ps h0 :: (h0 :: l).map ps.target).Perm (src ps h0 :: (h0 :: l).map (src ps)) := by
          rw [key]; exact List.perm_append_comm
        exact (List.Perm.cons_inv this).symm
      exact hp.nodup_iff.2 hc
    intro a ha b hb hab
    exact List.inj_on_of_nodup_map hR ha hb hab
  unfold outline
  rw [List.map_flatMap, List.nodup_flatMap]
  have form : ∀ h ∈ ps.fh f, ∃ q, q.Perm (pts (edgeOf h)) ∧ (side ps st.m0 pts sort pieces h).map (src st.m0) = src ps h :: q := by
    intro h hh
    have hl := (G.live hf hh).1
    obtain ⟨q, q1, q2⟩ := G.path hl
    exact ⟨q, q1, by rw [(G.sides hl).2.1, q2, ← List.cons_append, List.dropLast_concat]⟩
  have hpt : ∀ e, ∀ v ∈ pts e, base ≤ v := fun e v hv => ((G.ready.points e).2 v hv).1
  constructor
  · intro h hh
    obtain ⟨q, q1, q2⟩ := form h hh
    rw [q2, List.nodup_cons]
    refine ⟨fun hm => ?_, q1.nodup_iff.2 (G.ready.points _).1⟩
    have := hpt _ _ (q1.subset hm)
    have := (hold h hh).1
    omega
  · refine List.Nodup.pairwise_of_forall_ne hnd ?_
    intro a ha b hb hab
    simp only [Function.onFun]
    obtain ⟨qa, qa1, qa2⟩ := form a ha
    obtain ⟨qb, qb1, qb2⟩ := form b hb
    rw [qa2, qb2]
    intro v hva hvb
    rcases List.mem_cons.1 hva with h1 | h1 <;> rcases List.mem_cons.1 hvb with h2 | h2
    · exact hab (hsrc a ha b hb (h1.symm.trans h2))
    · have := hpt _ _ (qb1.subset h2); have := (hold a ha).1; omega
    · have := hpt _ _ (qa1.subset h1); have := (hold b hb).1; omega
    · exact hab (G.edge_inj hf ha hb (pts_edge G (qa1.subset h1) (qb1.subset h2)))

theorem Given.targets (G : Given d ps base pts sort edges c st pieces reg) {f : Nat} (hf : LiveF ps f) : ((outline ps st.m0 pts sort pieces f).map st.m0.target).Nodup := by
  have := G.ring hf
  unfold Ringed at this
  rw [this, List.nodup_rotate]
  exact G.sources hf

end Mcut.Trace
